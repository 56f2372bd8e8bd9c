import Verif.I2c.Ccs811
import Verif.I2c.Props71

/-!
# C111 — the CCS811 driver: wake pin, start, modes
-/

namespace Verif.I2c

open Verif

/-! ## Specification

The data sheet of the CCS811: the sensor is addressed only while its WAKE pin is low; the first transfer begins at least
50 µs after the pin has gone low, and the pin is high for at least 20 µs between two transfers with a high pin between
them. -/

/-- Every transfer happens with the pin low for at least 50 µs; before it goes low it has been high for at least `pause`
µs; and in the end it is high (the sensor sleeps). `high`: the level, for `t` µs. -/
def Paced (pause : Nat) : Bool → Nat → List CcsEv → Prop
  | high, _, [] => high = true
  | high, t, .output :: l => Paced pause high t l
  | high, t, .wait n :: l => Paced pause high (t + n) l
  | high, t, .bus _ :: l => high = false ∧ 50 ≤ t ∧ Paced pause high t l
  | _, _, .wake true :: l => Paced pause true 0 l
  | high, t, .wake false :: l => (high = true → pause ≤ t) ∧ Paced pause false 0 l

/-- What was on the bus. -/
def busOf : List CcsEv → List BusEv
  | [] => []
  | .bus ev :: l => ev ++ busOf l
  | _ :: l => busOf l

/-- The driver did `l`: that is what it logged, the transfers are transactions with the slave `addr`, and they are what
happened on the bus. -/
structure Did (E : Env) (addr : Byte) (w w' : CcsW) (l : List CcsEv) : Prop where
  log : w'.log = w.log ++ l
  trace : w'.h.trace = w.h.trace ++ busOf l
  slaves : FromSlaves E w.h.trace (busOf l)
  idle : Idle w'.h
  only : ∀ ev, CcsEv.bus ev ∈ l → ∃ tx n o k rx, Transaction addr tx n ev o k rx

/-- The pin low, waiting, the transfer, the pin high. -/
def awake (ev : List BusEv) : List CcsEv := [.wake false, .wait 60, .wait 50, .bus ev, .wake true]

/-- What a function returns that does not look whether a byte came: the byte read, else what was on the stack. -/
def readOr (rx : List Byte) (junk : Byte) : Byte := match rx with | x :: _ => x | [] => junk

/-! ## Lemmas -/

theorem busOf_append (l l' : List CcsEv) : busOf (l ++ l') = busOf l ++ busOf l' := by
  induction l with
  | nil => rfl
  | cons e l ih => cases e <;> simp [busOf, ih]

theorem Paced.mono {p : Nat} : ∀ {l : List CcsEv} {h : Bool} {t t' : Nat}, Paced p h t l → t ≤ t' → Paced p h t' l := by
  intro l
  induction l with
  | nil => intro h t t' q _; exact q
  | cons e l ih =>
    intro h t t' q hle
    cases e with
    | output => exact ih (t := t) (t' := t') q hle
    | wait n => exact ih (t := t + n) (t' := t' + n) q (by omega)
    | bus ev => exact ⟨q.1, by have := q.2.1; omega, ih q.2.2 hle⟩
    | wake v =>
      cases v with
      | true => exact q
      | false => exact ⟨fun g => by have := q.1 g; omega, q.2⟩

theorem Paced.append {p : Nat} : ∀ {l l' : List CcsEv} {h : Bool} {t : Nat}, Paced p h t l → Paced p true 0 l' →
    Paced p h t (l ++ l') := by
  intro l
  induction l with
  | nil =>
    intro l' h t q q'
    have : h = true := q
    subst this
    exact q'.mono (Nat.zero_le _)
  | cons e l ih =>
    intro l' h t q q'
    cases e with
    | output => exact ih (l' := l') (t := t) q q'
    | wait n => exact ih (l' := l') (t := t + n) q q'
    | bus ev => exact ⟨q.1, q.2.1, ih q.2.2 q'⟩
    | wake v =>
      cases v with
      | true => exact ih (l' := l') (h := true) (t := 0) q q'
      | false => exact ⟨q.1, ih q.2 q'⟩

theorem paced_awake (ev : List BusEv) : Paced 0 true 0 (awake ev) := by simp [awake, Paced]

theorem Did.trans {E : Env} {a : Byte} {w w1 w2 : CcsW} {l l' : List CcsEv} (h : Did E a w w1 l) (h' : Did E a w1 w2 l') :
    Did E a w w2 (l ++ l') where
  log := by rw [h'.log, h.log, List.append_assoc]
  trace := by rw [h'.trace, h.trace, busOf_append, List.append_assoc]
  slaves := by
    rw [busOf_append]
    exact fromSlaves_append _ _ _ h.slaves (by rw [← h.trace]; exact h'.slaves)
  idle := h'.idle
  only := fun ev hev => (List.mem_append.1 hev).elim (h.only ev) (h'.only ev)

/-- Waiting and setting the pin direction do nothing on the bus. -/
theorem Did.put {E : Env} {a : Byte} {w : CcsW} {l : List CcsEv} (hi : Idle w.h) (hl : ∀ ev, CcsEv.bus ev ∉ l) :
    Did E a w (w.put l) l := by
  have hb : busOf l = [] := by
    clear hi
    induction l with
    | nil => rfl
    | cons e l ih =>
      cases e with
      | bus ev => exact absurd List.mem_cons_self (hl ev)
      | _ => exact ih fun ev h => hl ev (List.mem_cons_of_mem _ h)
  exact ⟨rfl, by rw [hb, List.append_nil]; rfl, by rw [hb]; trivial, hi, fun ev h => absurd h (hl ev)⟩

/-- One session with the sensor. -/
theorem did_awake {E : Env} {a : Byte} {w : CcsW} {h' : Hw} {ev : List BusEv} {tx n o k rx}
    (h1 : Transaction a tx n ev o k rx) (h2 : FromSlaves E w.h.trace ev) (h3 : h'.trace = w.h.trace ++ ev) (h4 : Idle h') :
    Did E a w (ccsPin true ((ccsDelay 50 (ccsSlowPin false w)).moved h')) (awake ev) where
  log := by
    show ((w.log ++ _) ++ _) ++ [CcsEv.bus (h'.trace.drop w.h.trace.length)] ++ _ = _
    rw [h3, List.drop_left]
    simp [awake]
  trace := by simp [awake, busOf]; exact h3
  slaves := by simpa [awake, busOf] using h2
  idle := h4
  only := by
    intro ev' hev
    have : ev' = ev := by simpa [awake] using hev
    exact ⟨tx, n, o, k, rx, by rw [this]; exact h1⟩

theorem ccsErrorId_spec (E : Env) (hE : SingleMaster E) (a j s : Byte) (w : CcsW) (hi : Idle w.h) :
    ∃ w' ev o k rx, Returns (ccsErrorId E a j s w) (w', if s &&& 1#8 ≠ 0#8 then readOr rx j else 0#8) ∧ Did E a w w' (awake ev) ∧
      Transaction a [0xe0#8] 1 ev o k rx := by
  obtain ⟨ev, o, k, rx, r, g1, g2, g3, g4, g5, g6, g7, g8, g9, g10, g11⟩ := C70_cmdRead_partial E hE w.h hi a 0xe0#8 1 (by decide)
  refine ⟨_, ev, o, k, rx, ?_, did_awake g2 g3 g4 g5, g2⟩
  have : byteAt (over rx [j]) 0 = readOr rx j := by cases rx <;> rfl
  rw [← this, ← g6]
  exact g1.map _

theorem ccsHwId_spec (E : Env) (hE : SingleMaster E) (a j : Byte) (w : CcsW) (hi : Idle w.h) :
    ∃ w' ev o k rx, Returns (ccsHwId E a j w) (w', readOr rx 0#8) ∧ Did E a w w' (awake ev) ∧
      Transaction a [0x20#8] 1 ev o k rx := by
  obtain ⟨ev, o, k, rx, r, g1, g2, g3, g4, g5, g6, g7, g8, g9, g10, g11⟩ := C70_cmdRead_partial E hE w.h hi a 0x20#8 1 (by decide)
  refine ⟨_, ev, o, k, rx, ?_, did_awake g2 g3 g4 g5, g2⟩
  have : (if r.ret ≠ 1 then 0#8 else byteAt (over r.rx [j]) 0) = readOr rx 0#8 := by
    rw [g7, g6]
    match rx, g8 with
    | [], _ => rfl
    | [x], _ => rfl
  rw [← this]
  exact g1.map _

theorem ccsStatus_spec (E : Env) (hE : SingleMaster E) (a j : Byte) (w : CcsW) (hi : Idle w.h) :
    ∃ w' ev o k rx, Returns (ccsStatus E a j w) (w', readOr rx j) ∧ Did E a w w' (.wait 20 :: awake ev) ∧
      Transaction a [0x00#8] 1 ev o k rx := by
  obtain ⟨ev, o, k, rx, r, g1, g2, g3, g4, g5, g6, g7, g8, g9, g10, g11⟩ := C70_cmdRead_partial E hE w.h hi a 0x00#8 1 (by decide)
  refine ⟨_, ev, o, k, rx, ?_, (Did.put (l := [.wait 20]) hi (by simp)).trans (did_awake g2 g3 g4 g5), g2⟩
  have : byteAt (over rx [j]) 0 = readOr rx j := by cases rx <;> rfl
  rw [← this, ← g6]
  exact g1.map _

theorem ccsSend_spec (E : Env) (hE : SingleMaster E) (a : Byte) (d : List Byte) (hd : d ≠ []) (w : CcsW) (hi : Idle w.h) :
    ∃ w' ev o k, Returns (ccsSend E a d w) w' ∧ Did E a w w' (awake ev) ∧ Transaction a d 0 ev o k [] := by
  obtain ⟨ev, o, k, r, g1, g2, g3, g4, g5, g6, g7, g8, g9⟩ := C70_send_partial E hE w.h hi a d hd
  exact ⟨_, ev, o, k, g1.map _, did_awake g2 g3 g4 g6, g2⟩

/-! ## Theorems -/

/-- **C111.** The functions other than `begin`: each makes one session with the sensor — pin low, at least 50 µs, the transfer
asked for, pin high — whatever the sensor does; `setMode` writes the drive mode into bits 4 to 6 of the measurement mode
register (for modes up to 7) with both interrupts off, `sleep` selects mode 0. -/
theorem C111_sessions (E : Env) (hE : SingleMaster E) (a : Byte) (w : CcsW) (hi : Idle w.h) :
    (∀ m : Byte, m.toNat < 8 → ∃ w' ev o k, Returns (ccsSetMode E a m w) w' ∧ Did E a w w' (awake ev) ∧
      Transaction a [0x01#8, BitVec.ofNat 8 (16 * m.toNat)] 0 ev o k []) ∧
    (∃ w' ev o k, Returns (ccsSleep E a w) w' ∧ Did E a w w' (awake ev) ∧ Transaction a [0x01#8, 0x00#8] 0 ev o k []) ∧
    (∀ rh t : Byte, ∃ w' ev o k, Returns (ccsCompensate E a rh t w) w' ∧ Did E a w w' (awake ev) ∧
      Transaction a [0x05#8, rh, 0x00#8, t, 0x00#8] 0 ev o k []) ∧
    (∀ x y : Byte, ∃ w' ev o k, Returns (ccsWriteBaseline E a (BitVec.ofNat 16 (256 * x.toNat + y.toNat)) w) w' ∧
      Did E a w w' (awake ev) ∧ Transaction a [0x11#8, x, y] 0 ev o k []) ∧
    (∀ j0 j1 : Byte, ∃ w' v ev o k rx, Returns (ccsReadBaseline E a [j0, j1] w) (w', v) ∧ Did E a w w' (awake ev) ∧
      Transaction a [0x11#8] 2 ev o k rx ∧
      (∀ x y, rx = [x, y] → v = BitVec.ofNat 16 (256 * x.toNat + y.toNat)) ∧
      (rx = [] → v = BitVec.ofNat 16 (256 * j0.toNat + j1.toNat))) ∧
    (∃ w' v ev o k rx, Returns (ccsGetData E a w) (w', v) ∧ Did E a w w' (.wait 20 :: awake ev) ∧
      Transaction a [0x02#8] 4 ev o k rx ∧
      (∀ x0 x1 y0 y1, rx = [x0, x1, y0, y1] → v = some (BitVec.ofNat 16 (256 * x0.toNat + x1.toNat), BitVec.ofNat 16 (256 * y0.toNat + y1.toNat))) ∧
      (rx.length ≠ 4 → v = none)) ∧
    (∀ j, ∃ w' ev o k rx, Returns (ccsStatus E a j w) (w', readOr rx j) ∧ Did E a w w' (.wait 20 :: awake ev) ∧
      Transaction a [0x00#8] 1 ev o k rx) ∧
    (∀ j, ∃ w' ev o k rx, Returns (ccsHwId E a j w) (w', readOr rx 0#8) ∧ Did E a w w' (awake ev) ∧
      Transaction a [0x20#8] 1 ev o k rx) ∧
    (∀ j s : Byte, ∃ w' ev o k rx, Returns (ccsErrorId E a j s w) (w', if s.getLsbD 0 then readOr rx j else 0#8) ∧
      Did E a w w' (awake ev) ∧ Transaction a [0xe0#8] 1 ev o k rx) := by
  refine ⟨fun m hm => ?_, ccsSend_spec E hE a _ (by simp) w hi, fun rh t => ccsSend_spec E hE a _ (by simp) w hi, fun x y => ?_,
    fun j0 j1 => ?_, ?_, fun j => ccsStatus_spec E hE a j w hi, fun j => ccsHwId_spec E hE a j w hi, fun j s => ?_⟩
  · obtain ⟨w', ev, o, k, h1, h2, h3⟩ := ccsSend_spec E hE a [0x01#8, m <<< 4] (by simp) w hi
    have : BitVec.ofNat 8 (16 * m.toNat) = m <<< 4 := by
      apply BitVec.eq_of_toNat_eq
      simp [Nat.shiftLeft_eq]
      omega
    exact ⟨w', ev, o, k, h1, h2, by rw [this]; exact h3⟩
  · have hx := x.isLt
    have hy := y.isLt
    have e1 : ((BitVec.ofNat 16 (256 * x.toNat + y.toNat)) >>> 8).truncate 8 = x := by
      apply BitVec.eq_of_toNat_eq
      simp [BitVec.toNat_ushiftRight, Nat.shiftRight_eq_div_pow]
      omega
    have e2 : (BitVec.ofNat 16 (256 * x.toNat + y.toNat)).truncate 8 = y := by
      apply BitVec.eq_of_toNat_eq
      simp
      omega
    obtain ⟨ev, o, k, r, g1, g2, g3, g4, g5, g6, g7, g8, g9⟩ := C70_send_partial E hE w.h hi a [0x11#8, x, y] (by simp)
    refine ⟨_, ev, o, k, ?_, did_awake g2 g3 g4 g6, g2⟩
    have hs : Returns (ccsSetBaseline E w.h a (BitVec.ofNat 16 (256 * x.toNat + y.toNat))) r.h := by
      unfold ccsSetBaseline
      rw [e1, e2]
      exact g1.map _
    exact hs.map _
  · obtain ⟨ev, o, k, rx, r, g1, g2, g3, g4, g5, g6, g7, g8, g9, g10, g11⟩ := C70_cmdRead_partial E hE w.h hi a 0x11#8 2 (by decide)
    have hs : Returns (ccsGetBaseline E w.h a [j0, j1]) (r.h, wordOf (byteAt (over r.rx [j0, j1]) 0) (byteAt (over r.rx [j0, j1]) 1)) :=
      g1.map _
    refine ⟨_, _, ev, o, k, rx, hs.map _, did_awake g2 g3 g4 g5, g2, fun x y q => ?_, fun q => ?_⟩
    · show wordOf _ _ = _
      rw [g6, q, ← wordOf_eq]; rfl
    · show wordOf _ _ = _
      rw [g6, q, ← wordOf_eq]; rfl
  · obtain ⟨r, ev, o, k, rx, g1, g2, g3, g4, g5, g6, g7⟩ := C71_ccs_data_partial E hE w.h hi a
    refine ⟨_, _, ev, o, k, rx, g1.map _, (Did.put (l := [.wait 20]) hi (by simp)).trans (did_awake g5 g4 g3 g2), g5, fun x0 x1 y0 y1 q => ?_, g7⟩
    subst q
    exact g6 rfl
  · have := ccsErrorId_spec E hE a j s w hi
    have e : (s &&& 1#8 ≠ 0#8) = (s.getLsbD 0 = true) := by
      have := (by decide +kernel : ∀ s : Byte, (s &&& 1#8 ≠ 0#8) ↔ (s.getLsbD 0 = true)) s
      exact propext this
    simpa only [e] using this

/-- **C111.** `begin`, exactly, for every behaviour of the sensor: what is on the bus and the result. -/
theorem C111_begin_exact (E : Env) (hE : SingleMaster E) (a : Byte) (j : Byte × Byte × Byte × Byte) (w : CcsW) (hi : Idle w.h) :
    ∃ w' b l, Returns (ccsBegin E a j w) (w', b) ∧ Did E a w w' ([.wait 70000, .output] ++ l) ∧
      ∃ e1 o1 k1 id, Transaction a [0x20#8] 1 e1 o1 k1 id ∧
        ((id ≠ [0x81#8] ∧ b = false ∧ l = awake e1) ∨
         (id = [0x81#8] ∧ ∃ e2 o2 k2 st, Transaction a [0x00#8] 1 e2 o2 k2 st ∧
          (((readOr st j.2.1).getLsbD 4 = false ∧ b = false ∧ ∃ e3 o3 k3 er, Transaction a [0xe0#8] 1 e3 o3 k3 er ∧
              l = awake e1 ++ .wait 20 :: awake e2 ++ awake e3) ∨
           ((readOr st j.2.1).getLsbD 4 = true ∧ ∃ e3 o3 k3, Transaction a [0xf4#8] 0 e3 o3 k3 [] ∧
            ∃ e4 o4 k4 st', Transaction a [0x00#8] 1 e4 o4 k4 st' ∧
            (((readOr st' j.2.2.1).getLsbD 7 = false ∧ b = false ∧ ∃ e5 o5 k5 er, Transaction a [0xe0#8] 1 e5 o5 k5 er ∧
                l = awake e1 ++ .wait 20 :: awake e2 ++ .wait 20 :: awake e3 ++ .wait 20 :: awake e4 ++ awake e5) ∨
             ((readOr st' j.2.2.1).getLsbD 7 = true ∧ b = true ∧ ∃ e5 o5 k5, Transaction a [0x01#8, 0x20#8] 0 e5 o5 k5 [] ∧
                l = awake e1 ++ .wait 20 :: awake e2 ++ .wait 20 :: awake e3 ++ .wait 20 :: awake e4 ++ .wait 20 :: awake e5)))))) := by
  have b4 : ∀ s : Byte, (s &&& 0x10#8 = 0#8) ↔ s.getLsbD 4 = false := by decide +kernel
  have b7 : ∀ s : Byte, (s &&& 0x80#8 = 0#8) ↔ s.getLsbD 7 = false := by decide +kernel
  have d0 : Did E a w (w.put [.wait 70000, .output]) [.wait 70000, .output] := Did.put hi (by simp)
  obtain ⟨w1, e1, o1, k1, id, r1, d1, t1⟩ := ccsHwId_spec E hE a j.1 _ d0.idle
  have hid : readOr id 0#8 = 0x81#8 ↔ id = [0x81#8] := by
    have hl := (transaction_counts (Or.inl (List.cons_ne_nil _ _)) t1).2.1
    match id, hl with
    | [], _ => simp [readOr]
    | [x], _ => simp [readOr]
  by_cases c1 : readOr id 0#8 = 0x81#8
  · obtain ⟨w2, e2, o2, k2, st, r2, d2, t2⟩ := ccsStatus_spec E hE a j.2.1 w1 d1.idle
    by_cases c2 : readOr st j.2.1 &&& 0x10#8 = 0#8
    · obtain ⟨w3, e3, o3, k3, er, r3, d3, t3⟩ := ccsErrorId_spec E hE a j.2.2.2 (readOr st j.2.1) w2 d2.idle
      refine ⟨w3, false, awake e1 ++ .wait 20 :: awake e2 ++ awake e3, ?_, d0.trans ((d1.trans d2).trans d3), e1, o1, k1, id, t1,
        Or.inr ⟨hid.1 c1, e2, o2, k2, st, t2, Or.inl ⟨(b4 _).1 c2, rfl, e3, o3, k3, er, t3, rfl⟩⟩⟩
      refine r1.bind ?_
      simp only [c1, ne_eq, not_true_eq_false, if_false]
      refine r2.bind ?_
      simp only [c2, if_true]
      exact r3.map _
    · have d2' : Did E a w2 (ccsDelay 20 w2) [.wait 20] := Did.put d2.idle (by simp)
      obtain ⟨w3, e3, o3, k3, r3, d3, t3⟩ := ccsSend_spec E hE a [0xf4#8] (by simp) (ccsDelay 20 w2) d2.idle
      obtain ⟨w4, e4, o4, k4, st', r4, d4, t4⟩ := ccsStatus_spec E hE a j.2.2.1 w3 d3.idle
      have d23 : Did E a w2 w3 (.wait 20 :: awake e3) := d2'.trans d3
      have hst : (readOr st j.2.1).getLsbD 4 = true := by
        have := mt (b4 (readOr st j.2.1)).2 c2
        simpa using this
      by_cases c3 : readOr st' j.2.2.1 &&& 0x80#8 = 0#8
      · obtain ⟨w5, e5, o5, k5, er, r5, d5, t5⟩ := ccsErrorId_spec E hE a j.2.2.2 (readOr st' j.2.2.1) w4 d4.idle
        refine ⟨w5, false, _, ?_, d0.trans ((((d1.trans d2).trans d23).trans d4).trans d5), e1, o1, k1, id, t1,
          Or.inr ⟨hid.1 c1, e2, o2, k2, st, t2, Or.inr ⟨hst, e3, o3, k3, t3, e4, o4, k4, st', t4,
            Or.inl ⟨(b7 _).1 c3, rfl, e5, o5, k5, er, t5, rfl⟩⟩⟩⟩
        refine r1.bind ?_
        simp only [c1, ne_eq, not_true_eq_false, if_false]
        refine r2.bind ?_
        simp only [c2, if_false]
        refine r3.bind (r4.bind ?_)
        simp only [c3, if_true]
        exact r5.map _
      · have d4' : Did E a w4 (ccsDelay 20 w4) [.wait 20] := Did.put d4.idle (by simp)
        obtain ⟨w5, e5, o5, k5, r5, d5, t5⟩ := ccsSend_spec E hE a [0x01#8, 0x20#8] (by simp) (ccsDelay 20 w4) d4.idle
        have d45 : Did E a w4 w5 (.wait 20 :: awake e5) := d4'.trans d5
        refine ⟨w5, true, _, ?_, d0.trans ((((d1.trans d2).trans d23).trans d4).trans d45), e1, o1, k1, id, t1,
          Or.inr ⟨hid.1 c1, e2, o2, k2, st, t2, Or.inr ⟨hst, e3, o3, k3, t3, e4, o4, k4, st', t4,
            Or.inr ⟨?_, rfl, e5, o5, k5, t5, rfl⟩⟩⟩⟩
        · refine r1.bind ?_
          simp only [c1, ne_eq, not_true_eq_false, if_false]
          refine r2.bind ?_
          simp only [c2, if_false]
          refine r3.bind (r4.bind ?_)
          simp only [c3, if_false]
          exact r5.map _
        · have := mt (b7 (readOr st' j.2.2.1)).2 c3
          simpa using this
  · refine ⟨w1, false, awake e1, ?_, d0.trans d1, e1, o1, k1, id, t1, Or.inl ⟨fun q => c1 (hid.2 q), rfl, rfl⟩⟩
    refine r1.bind ?_
    simp only [c1, ne_eq, not_false_eq_true, if_true]
    exact Returns.pure _

/-- The sensor acknowledged, and no fault came in between. -/
def Answered : BusEv → Prop
  | .out _ ack => ack = true
  | .lost => False
  | .error => False
  | _ => True

theorem reading_done {n : Nat} {ev o rx} (h : Reading n ev o rx) (hA : ∀ e ∈ ev, Answered e) : o = .done := by
  induction h with
  | last b => rfl
  | more b _ ih => exact ih fun e he => hA e (List.mem_cons_of_mem _ he)
  | lost n => exact (hA .lost List.mem_cons_self).elim
  | error n => exact (hA .error List.mem_cons_self).elim

theorem readPart_done {a : Byte} {n : Nat} {ev o rx} (h : ReadPart a n ev o rx) (hA : ∀ e ∈ ev, Answered e) : o = .done := by
  cases h with
  | ack h => exact reading_done h fun e he => hA e (List.mem_cons_of_mem _ he)
  | nak => exact absurd (hA (.out (addrByte a true) false) List.mem_cons_self) (by simp [Answered])
  | lost => exact (hA .lost List.mem_cons_self).elim
  | error => exact (hA .error List.mem_cons_self).elim

theorem writing_done {a : Byte} {n : Nat} {tx ev o k rx} (h : Writing a n tx ev o k rx) (hA : ∀ e ∈ ev, Answered e) : o = .done := by
  induction h with
  | stop => rfl
  | read _ h => exact readPart_done h fun e he => hA e (List.mem_cons_of_mem _ he)
  | ack b _ ih => exact ih fun e he => hA e (List.mem_cons_of_mem _ he)
  | nak b bs => exact absurd (hA (.out b false) List.mem_cons_self) (by simp [Answered])
  | lost => exact (hA .lost List.mem_cons_self).elim
  | error => exact (hA .error List.mem_cons_self).elim

theorem transaction_done {a : Byte} {n : Nat} {tx ev o k rx} (h : Transaction a tx n ev o k rx) (hne : tx ≠ [] ∨ n ≠ 0)
    (hA : ∀ e ∈ ev, Answered e) : rx.length = n ∧ ev = transactionEvents a tx rx := by
  have ho : o = .done := by
    cases h with
    | write _ h => exact writing_done h fun e he => hA e (List.mem_cons_of_mem _ (List.mem_cons_of_mem _ he))
    | nak => exact absurd (hA (.out (addrByte a false) false) (by simp)) (by simp [Answered])
    | lost => exact (hA .lost (by simp)).elim
    | error => exact (hA .error (by simp)).elim
    | read _ h => exact readPart_done h fun e he => hA e (List.mem_cons_of_mem _ he)
  exact ((transaction_counts hne h).2.2.2.2 ho).2

theorem transaction_done1 {a : Byte} {tx ev o k rx} (h : Transaction a tx 1 ev o k rx)
    (hA : ∀ e ∈ ev, Answered e) : ∃ x, rx = [x] ∧ ev = transactionEvents a tx [x] := by
  obtain ⟨h1, h2⟩ := transaction_done h (Or.inr (by decide)) hA
  match rx, h1 with
  | [x], _ => exact ⟨x, rfl, h2⟩

theorem busOf_awake (ev : List BusEv) : busOf (awake ev) = ev := by simp [awake, busOf]

theorem busOf_wait (n : Nat) (l : List CcsEv) : busOf (.wait n :: l) = busOf l := rfl

/-- **C111 (part).** If the sensor answers every transfer, `begin` is true exactly if the identification is 0x81, the first
status says that there is a valid application (bit 4) and the second, after the start of the application, that it runs
(bit 7). Then the measurement mode is set to one measurement every 10 seconds, and all pauses of the data sheet are kept.
Otherwise nothing is configured. -/
theorem C111_begin_partial (E : Env) (hE : SingleMaster E) (a : Byte) (j : Byte × Byte × Byte × Byte) (w : CcsW) (hi : Idle w.h) :
    ∃ w' b l, Returns (ccsBegin E a j w) (w', b) ∧ Did E a w w' l ∧ (b = true → Paced 20 true 0 l) ∧
      ((∀ e ∈ busOf l, Answered e) →
        (b = true → ∃ st st' : Byte, st.getLsbD 4 = true ∧ st'.getLsbD 7 = true ∧
          busOf l = transactionEvents a [0x20#8] [0x81#8] ++ transactionEvents a [0x00#8] [st] ++ transactionEvents a [0xf4#8] [] ++
            transactionEvents a [0x00#8] [st'] ++ transactionEvents a [0x01#8, 0x20#8] []) ∧
        (b = false →
          (∃ id : Byte, id ≠ 0x81#8 ∧ busOf l = transactionEvents a [0x20#8] [id]) ∨
          (∃ st er : Byte, st.getLsbD 4 = false ∧
            busOf l = transactionEvents a [0x20#8] [0x81#8] ++ transactionEvents a [0x00#8] [st] ++ transactionEvents a [0xe0#8] [er]) ∨
          (∃ st st' er : Byte, st.getLsbD 4 = true ∧ st'.getLsbD 7 = false ∧
            busOf l = transactionEvents a [0x20#8] [0x81#8] ++ transactionEvents a [0x00#8] [st] ++ transactionEvents a [0xf4#8] [] ++
              transactionEvents a [0x00#8] [st'] ++ transactionEvents a [0xe0#8] [er]))) := by
  obtain ⟨w', b, l, h1, h2, e1, o1, k1, id, t1, h3⟩ := C111_begin_exact E hE a j w hi
  refine ⟨w', b, _, h1, h2, fun hb => ?_, fun hA => ?_⟩
  · rcases h3 with ⟨_, h, _⟩ | ⟨_, e2, o2, k2, st, t2, ⟨_, h, _⟩ | ⟨_, e3, o3, k3, t3, e4, o4, k4, st', t4, ⟨_, h, _⟩ | ⟨_, h, e5, o5, k5, t5, rfl⟩⟩⟩
    · rw [hb] at h; cases h
    · rw [hb] at h; cases h
    · rw [hb] at h; cases h
    · simp [awake, Paced]
  · have hb0 : busOf ([.wait 70000, .output] ++ l) = busOf l := rfl
    rw [hb0] at hA ⊢
    rcases h3 with ⟨c1, rfl, rfl⟩ | ⟨rfl, e2, o2, k2, st, t2, ⟨c2, rfl, e3, o3, k3, er, t3, rfl⟩ | ⟨c2, e3, o3, k3, t3, e4, o4, k4, st', t4, ⟨c3, rfl, e5, o5, k5, er, t5, rfl⟩ | ⟨c3, rfl, e5, o5, k5, t5, rfl⟩⟩⟩
    · rw [busOf_awake] at hA ⊢
      refine ⟨fun h => (by cases h), fun _ => Or.inl ?_⟩
      obtain ⟨x, rfl, q⟩ := transaction_done1 t1 hA
      exact ⟨x, fun q => c1 (by rw [q]), q⟩
    · have hbus : busOf (awake e1 ++ .wait 20 :: awake e2 ++ awake e3) = e1 ++ (e2 ++ e3) := by
        simp only [busOf_append, busOf_awake, busOf_wait, List.append_assoc]
      rw [hbus] at hA ⊢
      obtain ⟨x1, q1, p1⟩ := transaction_done1 t1 fun e he => hA e (by simp [he])
      obtain ⟨x2, q2, p2⟩ := transaction_done1 t2 fun e he => hA e (by simp [he])
      obtain ⟨x3, q3, p3⟩ := transaction_done1 t3 fun e he => hA e (by simp [he])
      refine ⟨fun h => (by cases h), fun _ => Or.inr (Or.inl ⟨x2, x3, by rw [q2] at c2; exact c2, ?_⟩)⟩
      cases q1
      rw [p1, p2, p3]; simp only [List.append_assoc]
    · have hbus : busOf (awake e1 ++ .wait 20 :: awake e2 ++ .wait 20 :: awake e3 ++ .wait 20 :: awake e4 ++ awake e5) = e1 ++ (e2 ++ (e3 ++ (e4 ++ e5))) := by
        simp only [busOf_append, busOf_awake, busOf_wait, List.append_assoc]
      rw [hbus] at hA ⊢
      obtain ⟨x1, q1, p1⟩ := transaction_done1 t1 fun e he => hA e (by simp [he])
      obtain ⟨x2, q2, p2⟩ := transaction_done1 t2 fun e he => hA e (by simp [he])
      have p3 := (transaction_done t3 (Or.inl (by simp)) fun e he => hA e (by simp [he])).2
      obtain ⟨x4, q4, p4⟩ := transaction_done1 t4 fun e he => hA e (by simp [he])
      obtain ⟨x5, q5, p5⟩ := transaction_done1 t5 fun e he => hA e (by simp [he])
      refine ⟨fun h => (by cases h), fun _ => Or.inr (Or.inr ⟨x2, x4, x5, by rw [q2] at c2; exact c2, by rw [q4] at c3; exact c3, ?_⟩)⟩
      cases q1
      rw [p1, p2, p3, p4, p5]; simp only [List.append_assoc]
    · have hbus : busOf (awake e1 ++ .wait 20 :: awake e2 ++ .wait 20 :: awake e3 ++ .wait 20 :: awake e4 ++ .wait 20 :: awake e5) = e1 ++ (e2 ++ (e3 ++ (e4 ++ e5))) := by
        simp only [busOf_append, busOf_awake, busOf_wait, List.append_assoc]
      rw [hbus] at hA ⊢
      obtain ⟨x1, q1, p1⟩ := transaction_done1 t1 fun e he => hA e (by simp [he])
      obtain ⟨x2, q2, p2⟩ := transaction_done1 t2 fun e he => hA e (by simp [he])
      have p3 := (transaction_done t3 (Or.inl (by simp)) fun e he => hA e (by simp [he])).2
      obtain ⟨x4, q4, p4⟩ := transaction_done1 t4 fun e he => hA e (by simp [he])
      have p5 := (transaction_done t5 (Or.inl (by simp)) fun e he => hA e (by simp [he])).2
      refine ⟨fun _ => ⟨x2, x4, by rw [q2] at c2; exact c2, by rw [q4] at c3; exact c3, ?_⟩, fun h => by cases h⟩
      cases q1
      rw [p1, p2, p3, p4, p5]; simp only [List.append_assoc]

/-- One call: the sensor sleeps before and afterwards, and is awake during the transfers. -/
theorem call_awake (E : Env) (hE : SingleMaster E) (a : Byte) (w : CcsW) (hi : Idle w.h) (c : CcsCall) :
    ∃ w' l, Returns (fun m => ccsCall E a w m c) w' ∧ Did E a w w' l ∧ Paced 0 true 0 l := by
  have hw : ∀ ev, Paced 0 true 0 (.wait 20 :: awake ev) := fun ev => by simp [awake, Paced]
  have hp := paced_awake
  obtain ⟨s1, s2, s3, s4, s5, s6, s7, s8, s9⟩ := C111_sessions E hE a w hi
  cases c with
  | begin j =>
    obtain ⟨w', b, l, h1, h2, e1, o1, k1, id, t1, h3⟩ := C111_begin_exact E hE a j w hi
    refine ⟨w', _, h1.map (·.1), h2, ?_⟩
    have hl : Paced 0 true 0 l := by
      rcases h3 with ⟨_, _, rfl⟩ | ⟨_, e2, _, _, _, _, ⟨_, _, e3, _, _, _, _, rfl⟩ | ⟨_, e3, _, _, _, e4, _, _, _, _, ⟨_, _, e5, _, _, _, _, rfl⟩ | ⟨_, _, e5, _, _, _, rfl⟩⟩⟩
      · exact hp e1
      · exact ((hp e1).append (hw e2)).append (hp e3)
      · exact ((((hp e1).append (hw e2)).append (hw e3)).append (hw e4)).append (hp e5)
      · exact ((((hp e1).append (hw e2)).append (hw e3)).append (hw e4)).append (hw e5)
    exact hl.mono (Nat.zero_le _)
  | status j => obtain ⟨w', ev, _, _, _, h1, h2, _⟩ := s7 j; exact ⟨w', _, h1.map (·.1), h2, hw ev⟩
  | hwId j => obtain ⟨w', ev, _, _, _, h1, h2, _⟩ := s8 j; exact ⟨w', _, h1.map (·.1), h2, hp ev⟩
  | errorId j s => obtain ⟨w', ev, _, _, _, h1, h2, _⟩ := s9 j s; exact ⟨w', _, h1.map (·.1), h2, hp ev⟩
  | getBaseline j0 j1 => obtain ⟨w', _, ev, _, _, _, h1, h2, _⟩ := s5 j0 j1; exact ⟨w', _, h1.map (·.1), h2, hp ev⟩
  | setBaseline b =>
    have hb : b = BitVec.ofNat 16 (256 * ((b >>> 8).truncate 8 : Byte).toNat + (b.truncate 8 : Byte).toNat) := by
      apply BitVec.eq_of_toNat_eq
      have := b.isLt
      simp [BitVec.toNat_ushiftRight, Nat.shiftRight_eq_div_pow]
      omega
    obtain ⟨w', ev, _, _, h1, h2, _⟩ := s4 ((b >>> 8).truncate 8) (b.truncate 8)
    rw [← hb] at h1
    exact ⟨w', _, h1, h2, hp ev⟩
  | setMode m =>
    obtain ⟨w', ev, _, _, h1, h2, _⟩ := ccsSend_spec E hE a [0x01#8, m <<< 4] (by simp) w hi
    exact ⟨w', _, h1, h2, hp ev⟩
  | getData => obtain ⟨w', _, ev, _, _, _, h1, h2, _⟩ := s6; exact ⟨w', _, h1.map (·.1), h2, hw ev⟩
  | compensate rh t => obtain ⟨w', ev, _, _, h1, h2, _⟩ := s3 rh t; exact ⟨w', _, h1, h2, hp ev⟩
  | sleep => obtain ⟨w', ev, _, _, h1, h2, _⟩ := s2; exact ⟨w', _, h1, h2, hp ev⟩

/-- **C111.** For every program that calls the driver, whatever the sensor does: every call returns, the bus carries only
transactions with the sensor, each while WAKE is low for at least 50 µs, and after every call the sensor sleeps. -/
theorem C111_awake (E : Env) (hE : SingleMaster E) (a : Byte) (cs : List (CcsCall × Nat)) (w : CcsW) (hi : Idle w.h) :
    ∃ w' l, Returns (fun m => ccsCalls E a w m cs) w' ∧ Did E a w w' l ∧ Paced 0 true 0 l := by
  induction cs generalizing w with
  | nil => exact ⟨w, [], Returns.pure _, ⟨(List.append_nil _).symm, (List.append_nil _).symm, trivial, hi, by simp⟩, rfl⟩
  | cons c cs ih =>
    obtain ⟨c, us⟩ := c
    obtain ⟨w1, l1, r1, d1, p1⟩ := call_awake E hE a w hi c
    have d1' : Did E a w1 (ccsDelay us w1) [.wait us] := Did.put d1.idle (by simp)
    obtain ⟨w2, l2, r2, d2, p2⟩ := ih (ccsDelay us w1) d1.idle
    refine ⟨w2, l1 ++ ([.wait us] ++ l2), r1.bind r2, d1.trans (d1'.trans d2), p1.append ?_⟩
    exact p2.mono (Nat.zero_le _)

/-- **C111 (violated part).** The pause of 20 µs between two sessions is missing before `readErrorID`: when `begin` finds no
valid application, WAKE is high only for the time of a few instructions before it goes low again. (The same holds for
`readHW_ID`, `getBaseline`, `setBaseline`, `sleep`, `setMode` and `compensate` called directly after another function:
they begin with `awake`, `C111_sessions`.) -/
theorem C111_no_pause (e1 e2 e3 : List BusEv) :
    ¬ Paced 20 true 0 ([.wait 70000, .output] ++ (awake e1 ++ .wait 20 :: awake e2 ++ awake e3)) := by
  simp [awake, Paced]

/-- A sensor that answers the first transfer, with 0x81 for the identification, and then nothing any more. -/
def unplugged (w : CcsW) : Env := ⟨fun t => decide (t.length < w.h.trace.length + 7), fun _ => 0x81#8, fun _ => none⟩

theorem unplugged_quiet (w : CcsW) : SingleMaster (unplugged w) := fun t => by simp [unplugged]

theorem unplugged_first (w : CcsW) {a c : Byte} {ev o k rx} (h : Transaction a [c] 1 ev o k rx)
    (hs : FromSlaves (unplugged w) w.h.trace ev) : rx = [0x81#8] ∧ ev.length = 7 := by
  cases h with
  | write _ h =>
    cases h with
    | ack b h =>
      cases h with
      | stop h => exact absurd h (by decide)
      | read _ h =>
        cases h with
        | ack h =>
          cases h with
          | last b => simp [FromSlaves, unplugged] at hs ⊢; exact hs
          | lost => simp [FromSlaves, unplugged] at hs
          | error => simp [FromSlaves, unplugged] at hs
        | nak => simp [FromSlaves, unplugged] at hs
        | lost => simp [FromSlaves, unplugged] at hs
        | error => simp [FromSlaves, unplugged] at hs
    | nak => simp [FromSlaves, unplugged] at hs
    | lost => simp [FromSlaves, unplugged] at hs
    | error => simp [FromSlaves, unplugged] at hs
  | nak => simp [FromSlaves, unplugged] at hs
  | lost => simp [FromSlaves, unplugged] at hs
  | error => simp [FromSlaves, unplugged] at hs
  | read h => exact absurd h (by simp)

theorem unplugged_later (w : CcsW) {a c : Byte} {tx : List Byte} {n : Nat} {ev o k rx} {t : List BusEv} (h : Transaction a (c :: tx) n ev o k rx)
    (ht : w.h.trace.length + 7 ≤ t.length) (hs : FromSlaves (unplugged w) t ev) :
    rx = [] ∧ ev = [.start, .out (addrByte a false) false, .stop] := by
  cases h with
  | write _ h => simp [FromSlaves, unplugged] at hs; omega
  | nak => exact ⟨rfl, rfl⟩
  | lost => simp [FromSlaves, unplugged] at hs
  | error => simp [FromSlaves, unplugged] at hs
  | read h => exact absurd h (by simp)

theorem fromSlaves_left {E : Env} : ∀ (ev ev' t : List BusEv), FromSlaves E t (ev ++ ev') → FromSlaves E t ev ∧ FromSlaves E (t ++ ev) ev' := by
  intro ev
  induction ev with
  | nil => intro ev' t h; exact ⟨trivial, by simpa using h⟩
  | cons e ev ih =>
    intro ev' t h
    obtain ⟨h1, h2⟩ := ih ev' (t ++ [e]) h.2
    exact ⟨⟨h.1, h1⟩, by simpa using h2⟩

/-- **C111 (violated part).** `begin` does not look whether its readings of the status and its settings succeed: with a sensor
that identifies itself and then answers nothing, the result is given by two bytes that happened to be on the stack. In
particular it can be true, although neither the start of the application nor the mode was accepted. -/
theorem C111_begin_stack (a : Byte) (j : Byte × Byte × Byte × Byte) (w : CcsW) (hi : Idle w.h) :
    ∃ w', Returns (ccsBegin (unplugged w) a j w) (w', j.2.1.getLsbD 4 && j.2.2.1.getLsbD 7) ∧
      ∃ n, w'.h.trace = w.h.trace ++ transactionEvents a [0x20#8] [0x81#8] ++
        (List.replicate n [.start, .out (addrByte a false) false, .stop]).flatten := by
  obtain ⟨w', b, l, h1, h2, e1, o1, k1, id, t1, h3⟩ := C111_begin_exact (unplugged w) (unplugged_quiet w) a j w hi
  have hb0 : busOf ([.wait 70000, .output] ++ l) = busOf l := rfl
  have hs := h2.slaves
  have ht := h2.trace
  rw [hb0] at hs ht
  have hfirst : ∀ r, FromSlaves (unplugged w) w.h.trace (e1 ++ r) → id = [0x81#8] ∧ w.h.trace.length + 7 ≤ (w.h.trace ++ e1).length ∧
      e1 = transactionEvents a [0x20#8] [0x81#8] ∧ FromSlaves (unplugged w) (w.h.trace ++ e1) r := by
    intro r hr
    obtain ⟨g1, g2⟩ := fromSlaves_left _ _ _ hr
    obtain ⟨q1, q2⟩ := unplugged_first w t1 g1
    have hc := transaction_counts (Or.inr (by decide)) t1
    refine ⟨q1, by simp [q2], ?_, g2⟩
    rw [← q1]
    exact (hc.2.2.2.2 ((hc.2.2.1 (by decide)).1 (by rw [q1]; rfl))).2.2
  rcases h3 with ⟨c1, rfl, rfl⟩ | ⟨rfl, e2, o2, k2, st, t2, ⟨c2, rfl, e3, o3, k3, er, t3, rfl⟩ | ⟨c2, e3, o3, k3, t3, e4, o4, k4, st', t4, ⟨c3, rfl, e5, o5, k5, er, t5, rfl⟩ | ⟨c3, rfl, e5, o5, k5, t5, rfl⟩⟩⟩
  · rw [busOf_awake] at hs
    exact absurd (hfirst [] (by simpa using hs)).1 c1
  · have hbus : busOf (awake e1 ++ .wait 20 :: awake e2 ++ awake e3) = e1 ++ (e2 ++ e3) := by
      simp only [busOf_append, busOf_awake, busOf_wait, List.append_assoc]
    rw [hbus] at hs ht
    obtain ⟨_, hl, he1, hr⟩ := hfirst _ hs
    obtain ⟨s2, hr⟩ := fromSlaves_left _ _ _ hr
    obtain ⟨rfl, he2⟩ := unplugged_later w t2 hl s2
    obtain ⟨_, he3⟩ := unplugged_later w t3 (by rw [List.length_append]; omega) hr
    refine ⟨w', ?_, 2, by rw [ht, ← he1, he2, he3]; simp⟩
    rw [show j.2.1.getLsbD 4 = false from c2]
    exact h1
  · have hbus : busOf (awake e1 ++ .wait 20 :: awake e2 ++ .wait 20 :: awake e3 ++ .wait 20 :: awake e4 ++ awake e5) =
        e1 ++ (e2 ++ (e3 ++ (e4 ++ e5))) := by
      simp only [busOf_append, busOf_awake, busOf_wait, List.append_assoc]
    rw [hbus] at hs ht
    obtain ⟨_, hl, he1, hr⟩ := hfirst _ hs
    obtain ⟨s2, hr⟩ := fromSlaves_left _ _ _ hr
    obtain ⟨s3, hr⟩ := fromSlaves_left _ _ _ hr
    obtain ⟨s4, s5⟩ := fromSlaves_left _ _ _ hr
    obtain ⟨rfl, he2⟩ := unplugged_later w t2 hl s2
    obtain ⟨_, he3⟩ := unplugged_later w t3 (by simp only [List.length_append] at hl ⊢; omega) s3
    obtain ⟨rfl, he4⟩ := unplugged_later w t4 (by simp only [List.length_append] at hl ⊢; omega) s4
    obtain ⟨_, he5⟩ := unplugged_later w t5 (by simp only [List.length_append] at hl ⊢; omega) s5
    refine ⟨w', ?_, 4, by rw [ht, ← he1, he2, he3, he4, he5]; simp⟩
    rw [show j.2.1.getLsbD 4 = true from c2, show j.2.2.1.getLsbD 7 = false from c3]
    exact h1
  · have hbus : busOf (awake e1 ++ .wait 20 :: awake e2 ++ .wait 20 :: awake e3 ++ .wait 20 :: awake e4 ++ .wait 20 :: awake e5) =
        e1 ++ (e2 ++ (e3 ++ (e4 ++ e5))) := by
      simp only [busOf_append, busOf_awake, busOf_wait, List.append_assoc]
    rw [hbus] at hs ht
    obtain ⟨_, hl, he1, hr⟩ := hfirst _ hs
    obtain ⟨s2, hr⟩ := fromSlaves_left _ _ _ hr
    obtain ⟨s3, hr⟩ := fromSlaves_left _ _ _ hr
    obtain ⟨s4, s5⟩ := fromSlaves_left _ _ _ hr
    obtain ⟨rfl, he2⟩ := unplugged_later w t2 hl s2
    obtain ⟨_, he3⟩ := unplugged_later w t3 (by simp only [List.length_append] at hl ⊢; omega) s3
    obtain ⟨rfl, he4⟩ := unplugged_later w t4 (by simp only [List.length_append] at hl ⊢; omega) s4
    obtain ⟨_, he5⟩ := unplugged_later w t5 (by simp only [List.length_append] at hl ⊢; omega) s5
    refine ⟨w', ?_, 4, by rw [ht, ← he1, he2, he3, he4, he5]; simp⟩
    rw [show j.2.1.getLsbD 4 = true from c2, show j.2.2.1.getLsbD 7 = true from c3]
    exact h1

/-! ## Concrete cases -/

/-- A good sensor: it gives its identification first, then the status. -/
def goodCcs : Env := ⟨fun _ => true, fun t => if t.length < 7 then 0x81#8 else 0x90#8, fun _ => none⟩

example : SingleMaster goodCcs ∧ Idle (⟨fresh, []⟩ : CcsW).h := ⟨fun t => by simp [goodCcs], Or.inl rfl, rfl⟩

/-- `C111_begin_exact`, `C111_begin_partial` applied: true, and all transfers answered. -/
example : (ccsBegin goodCcs 0x5a#8 (0, 0, 0, 0) ⟨fresh, []⟩ 60).map (fun r => (r.2, busOf r.1.log)) =
    some (true, transactionEvents 0x5a#8 [0x20#8] [0x81#8] ++ transactionEvents 0x5a#8 [0x00#8] [0x90#8] ++ transactionEvents 0x5a#8 [0xf4#8] [] ++
      transactionEvents 0x5a#8 [0x00#8] [0x90#8] ++ transactionEvents 0x5a#8 [0x01#8, 0x20#8] []) := by decide +kernel

/-- `C111_begin_stack` applied. -/
example : (ccsBegin (unplugged ⟨fresh, []⟩) 0x5a#8 (0, 0x10, 0x80, 0) ⟨fresh, []⟩ 60).map (·.2) = some true ∧
    (ccsBegin (unplugged ⟨fresh, []⟩) 0x5a#8 (0, 0, 0, 0) ⟨fresh, []⟩ 60).map (·.2) = some false := by decide +kernel

/-- `C111_sessions` and `C111_awake` applied: `setMode(3)`, then `getData`. -/
example : (ccsCalls goodCcs 0x5a#8 ⟨fresh, []⟩ 60 [(.setMode 3#8, 1000), (.getData, 0)]).map (·.log) =
    some (awake (transactionEvents 0x5a#8 [0x01#8, 0x30#8] []) ++ [.wait 1000, .wait 20] ++
      awake (transactionEvents 0x5a#8 [0x02#8] [0x90#8, 0x90#8, 0x90#8, 0x90#8]) ++ [.wait 0]) := by decide +kernel

end Verif.I2c
