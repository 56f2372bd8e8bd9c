import Verif.I2c.Lemmas

/-!
# C70 — I2C master transfers
-/

namespace Verif.I2c

open Verif

/-! ## One transfer -/

theorem wait_ended {E : Env} {t ev : List BusEv} {o : Outcome} {s : St} (h : Ended E t ev o s) :
    ∃ s', Returns (fun m => waitStop E m s) s' ∧ s'.x = s.x ∧ Idle s'.h ∧ s'.h.trace = t ++ ev := by
  rcases h.settled with ⟨h1, h2, h3⟩ | ⟨h1, h2, h3⟩
  · refine ⟨s, ⟨1, fun m hm => ?_⟩, rfl, ⟨Or.inr h2, h1⟩, h3⟩
    obtain ⟨k, rfl⟩ : ∃ k, m = k + 1 := ⟨m - 1, by omega⟩
    show waitStop E (k + 1) s = some s
    rw [waitStop, if_neg (by simp [h1])]
  · have e : (hwStep E s.h).sto = false ∧ (hwStep E s.h).stat = 0xf8 := by
      simp [hwStep, h1, h2]
    refine ⟨{ s with h := hwStep E s.h }, ⟨2, fun m hm => ?_⟩, rfl, ⟨Or.inl e.2, e.1⟩, h3⟩
    obtain ⟨k, rfl⟩ : ∃ k, m = k + 2 := ⟨m - 2, by omega⟩
    show waitStop E (k + 2) s = some _
    rw [waitStop, if_pos h2, waitStop, if_neg (by simp [e.1])]

theorem transfer_ends {E : Env} {h : Hw} {x : Xfer} {s : St} {t ev : List BusEv} {o : Outcome}
    (h1 : Steps E ⟨startMaster h, { x with status := .busy }⟩ s) (h2 : Ended E t ev o s) :
    ∃ s', Returns (fun m => transfer E m h x) s' ∧ s'.x = s.x ∧ Idle s'.h ∧ s'.h.trace = t ++ ev := by
  obtain ⟨s', ⟨n2, w⟩, q1, q2, q3⟩ := wait_ended h2
  obtain ⟨n1, p⟩ := h1.end_ (by rw [h2.status]; cases o <;> simp [report])
  refine ⟨s', ⟨max n1 n2, fun m hm => ?_⟩, q1, q2, q3⟩
  show (poll E m _).bind (waitStop E m) = some s'
  rw [show poll E m ⟨startMaster h, { x with status := .busy }⟩ = some s from p m (by omega)]
  exact w m (by omega)

/-- What one transfer does. -/
structure Done (E : Env) (h : Hw) (x : Xfer) (n : Nat) (ev : List BusEv) (o : Outcome) (k : Nat) (rx : List Byte) (s : St) :
    Prop where
  bus : Transaction x.addr x.tx n ev o k rx
  slaves : FromSlaves E h.trace ev
  trace : s.h.trace = h.trace ++ ev
  idle : Idle s.h
  status : s.x.status = report o
  same : SameX x s.x rx
  tx : s.x.tx = x.tx.drop k

theorem transfer_spec (E : Env) (h : Hw) (hi : Idle h) (x : Xfer) (n : Nat) (hsz : x.rxSz = (n : Int)) (hne : x.tx ≠ [] ∨ n ≠ 0) :
    ∃ ev o k rx s, Returns (fun m => transfer E m h x) s ∧ Done E h x n ev o k rx s := by
  generalize hx' : ({ x with status := .busy } : Xfer) = x'
  have hb : x'.status = .busy := by rw [← hx']
  have hx : x'.addr = x.addr ∧ x'.tx = x.tx ∧ x'.rx = x.rx ∧ x'.rxSz = x.rxSz ∧ x'.oob = x.oob := by
    rw [← hx']; exact ⟨rfl, rfl, rfl, rfl, rfl⟩
  have st1 : Steps E ⟨startMaster h, x'⟩ _ := Steps.hw hb rfl
  have e1 : hwStep E (startMaster h) = { startMaster h with stat := 0x08, si := true, trace := h.trace ++ [.start] } := by
    have : (startMaster h).released = true := by
      rcases hi.1 with q | q <;> simp [Hw.released, startMaster, q]
    simp only [hwStep, this]
    simp [startMaster]
  dsimp only at st1
  rw [e1] at st1
  have fin : ∀ {ev o k rx s}, Steps E ⟨startMaster h, x'⟩ s → Transaction x.addr x.tx n ev o k rx → FromSlaves E h.trace ev →
      Ended E h.trace ev o s → SameX x' s.x rx → s.x.tx = x.tx.drop k →
      ∃ ev o k rx s, Returns (fun m => transfer E m h x) s ∧ Done E h x n ev o k rx s := by
    intro ev o k rx s q1 q2 q3 q4 q5 q6
    rw [← hx'] at q1
    obtain ⟨s', r1, r2, r3, r4⟩ := transfer_ends q1 q4
    refine ⟨ev, o, k, rx, s', r1, ⟨q2, q3, r4, r3, by rw [r2]; exact q4.status, ⟨?_, ?_, ?_, ?_⟩, by rw [r2]; exact q6⟩⟩
    · rw [r2, q5.stored, hx.2.2.1]
    · rw [r2, q5.rxSz, hx.2.2.2.1]
    · rw [r2, q5.oob, hx.2.2.2.2]
    · rw [r2, q5.addr, hx.1]
  by_cases htx : x.tx = []
  · obtain ⟨m, rfl⟩ : ∃ m, n = m + 1 := ⟨n - 1, by have := hne.resolve_left (fun h => h htx); omega⟩
    obtain ⟨ev, o, rx, s', q1, q2, q3, q4, q5, q6⟩ := readPart (E := E) m
      ⟨{ startMaster h with stat := 0x08, si := true, trace := h.trace ++ [.start] }, x'⟩ hb rfl (Or.inl rfl) (hx.2.1.trans htx)
      (hx.2.2.2.1.trans hsz)
    exact fin (st1.trans q1) (.read htx (hx.1 ▸ q2)) ⟨trivial, q3⟩ q4.shift q5 (by rw [q6, htx]; rfl)
  · have st2 := st1.trans (Steps.handle (E := E) hb rfl)
    have e2 : handle ⟨{ startMaster h with stat := 0x08, si := true, trace := h.trace ++ [.start] }, x'⟩ =
        ⟨control { startMaster h with stat := 0x08, dat := addrByte x.addr false, trace := h.trace ++ [.start] } false false false, x'⟩ := by
      unfold handle
      rw [if_pos (Or.inl rfl)]
      dsimp only
      rw [if_neg (by rw [hx.2.1]; exact htx), hx.1, (addr_write x.addr).1]
      rfl
    rw [e2] at st2
    have st3 := st2.trans (Steps.hw (E := E) hb rfl)
    dsimp only at st3
    generalize hh : control { startMaster h with stat := 0x08, dat := addrByte x.addr false, trace := h.trace ++ [.start] }
      false false false = h3 at st3
    have hh3 : h3.trace = h.trace ++ [.start] ∧ h3.dat = addrByte x.addr false := by rw [← hh]; exact ⟨rfl, rfl⟩
    have e3 : hwStep E h3 = sendByte E h3 0x18 0x20 := by
      have hb0 := (addr_write x.addr).2
      rw [← hh]
      generalize addrByte x.addr false = d at hb0
      simp only [hwStep, control, hb0]
      simp
    rw [e3] at st3
    rcases sendByte_cases E h3 0x18 0x20 with ⟨k, e4, hf⟩ | ⟨e4, hf⟩ | ⟨e4, hf⟩
    · rw [e4] at st3
      rw [hh3.2, hh3.1] at hf
      rw [hh3.2, hh3.1] at st3
      cases k with
      | true =>
        obtain ⟨ev, o, k, rx, s', q1, q2, q3, q4, q5, q6⟩ := writing (E := E) n x.tx
          ⟨{ h3 with stat := 0x18, si := true, dat := addrByte x.addr false, trace := h.trace ++ [.start] ++ [.out (addrByte x.addr false) true] }, x'⟩
          hb rfl (Or.inl rfl) hx.2.1 (hx.2.2.2.1.trans hsz)
        exact fin (st3.trans q1) (.write htx (hx.1 ▸ q2)) ⟨trivial, hf.cons q3⟩ q4.shift.shift q5 q6
      | false =>
        obtain ⟨s', q1, q2, q3, q4, q5, q6, q7⟩ := end_nak st3 hb rfl (Or.inl rfl) (t := h.trace)
          (ev := [.start, .out (addrByte x.addr false) false]) (by simp)
        exact fin (k := 0) (rx := []) q1 (.nak htx) ⟨trivial, hf.cons ⟨trivial, trivial⟩⟩ q2
          ⟨by simpa using q3, by simpa using q4, q6, q7⟩ (by simpa [hx.2.1] using q5)
    · rw [e4] at st3
      rw [hh3.1] at hf
      obtain ⟨s', q1, q2, q3, q4, q5, q6, q7⟩ := end_lost st3 hb rfl rfl (t := h.trace) (ev := [.start, .lost]) (by simp [hh3.1])
      exact fin (k := 0) (rx := []) q1 (.lost htx) ⟨trivial, hf⟩ q2 ⟨by simpa using q3, by simpa using q4, q6, q7⟩
        (by simpa [hx.2.1] using q5)
    · rw [e4] at st3
      rw [hh3.1] at hf
      obtain ⟨s', q1, q2, q3, q4, q5, q6, q7⟩ := end_error st3 hb rfl rfl (t := h.trace) (ev := [.start, .error]) (by simp [hh3.1])
      exact fin (k := 0) (rx := []) q1 (.error htx) ⟨trivial, hf⟩ q2 ⟨by simpa using q3, by simpa using q4, q6, q7⟩
        (by simpa [hx.2.1] using q5)

/-! ## The loop over lost arbitrations -/

theorem retry_once {E : Env} {h : Hw} {x : Xfer} {s : St} (h1 : Returns (fun m => transfer E m h x) s) (h2 : s.x.status ≠ .arbLost) :
    Returns (fun m => retry E m m h x) s := by
  obtain ⟨n, h1⟩ := h1
  refine ⟨n + 1, fun m hm => ?_⟩
  obtain ⟨k, rfl⟩ : ∃ k, m = k + 1 := ⟨m - 1, by omega⟩
  show retry E (k + 1) (k + 1) h x = some s
  rw [retry, show transfer E (k + 1) h x = some s from h1 _ (by omega)]
  exact if_neg h2

/-- Losing needs a fault of the bus. -/
theorem reading_lost {n : Nat} {ev o rx} (h : Reading n ev o rx) : o = .lost → BusEv.lost ∈ ev := by
  induction h with
  | last b => intro h; cases h
  | more b _ ih => intro h; exact List.mem_cons_of_mem _ (ih h)
  | lost n => intro _; simp
  | error n => intro h; cases h

theorem readPart_lost {a : Byte} {n : Nat} {ev o rx} (h : ReadPart a n ev o rx) : o = .lost → BusEv.lost ∈ ev := by
  cases h with
  | ack h => intro q; exact List.mem_cons_of_mem _ (reading_lost h q)
  | nak => intro h; cases h
  | lost => intro _; simp
  | error => intro h; cases h

theorem writing_lost {a : Byte} {n : Nat} {tx ev o k rx} (h : Writing a n tx ev o k rx) : o = .lost → BusEv.lost ∈ ev := by
  induction h with
  | stop => intro h; cases h
  | read _ h => intro q; exact List.mem_cons_of_mem _ (readPart_lost h q)
  | ack b _ ih => intro h; exact List.mem_cons_of_mem _ (ih h)
  | nak => intro h; cases h
  | lost => intro _; simp
  | error => intro h; cases h

theorem transaction_lost {a : Byte} {n : Nat} {tx ev k rx} (h : Transaction a tx n ev .lost k rx) : BusEv.lost ∈ ev := by
  cases h with
  | write _ h => exact List.mem_cons_of_mem _ (List.mem_cons_of_mem _ (writing_lost h rfl))
  | lost => simp
  | read _ h => exact List.mem_cons_of_mem _ (readPart_lost h rfl)

theorem slaves_lost {E : Env} (hE : SingleMaster E) {ev : List BusEv} : ∀ t, FromSlaves E t ev → BusEv.lost ∉ ev := by
  induction ev with
  | nil => intro t _ h; simp at h
  | cons e ev ih =>
    intro t h hm
    rcases List.mem_cons.1 hm with rfl | hm
    · exact hE t h.1
    · exact ih _ h.2 hm

theorem call_spec (E : Env) (hE : SingleMaster E) (h : Hw) (hi : Idle h) (a : Byte) (tx : List Byte) (n : Nat) (hne : tx ≠ [] ∨ n ≠ 0) :
    ∃ ev o k rx s, Returns (fun m => retry E m m h (xfer a tx n)) s ∧ Done E h (xfer a tx n) n ev o k rx s ∧ o ≠ .lost := by
  obtain ⟨ev, o, k, rx, s, h1, h2⟩ := transfer_spec E h hi (xfer a tx n) n rfl hne
  have ho : o ≠ .lost := by
    rintro rfl
    exact slaves_lost hE _ h2.slaves (transaction_lost h2.bus)
  refine ⟨ev, o, k, rx, s, retry_once h1 ?_, h2, ho⟩
  rw [h2.status]
  cases o <;> simp [report] at ho ⊢

/-! ## The transactions with a successful end -/

/-- The bytes acknowledged by the slave. -/
def acked (l : List Byte) : List BusEv := l.map (BusEv.out · true)

/-- The bytes read, all but the last acknowledged. -/
def readBytes : List Byte → List BusEv
  | [] => []
  | [b] => [.inp b false]
  | b :: bs => .inp b true :: readBytes bs

theorem reading_counts {n : Nat} {ev o rx} (h : Reading n ev o rx) :
    rx.length ≤ n ∧ (rx.length = n ↔ o = .done) ∧ (o = .done → ev = readBytes rx ++ [.stop]) := by
  induction h with
  | last b => simp [readBytes]
  | more b h ih =>
    refine ⟨by simp; omega, ?_, ?_⟩
    · rw [← ih.2.1]; simp
    · intro ho
      have hl := ih.2.1.2 ho
      have he := ih.2.2 ho
      rename_i n ev o rx
      cases rx with
      | nil => simp at hl
      | cons c rx => simp [readBytes, he]
  | lost n => simp
  | error n => simp

theorem readPart_counts {a : Byte} {n : Nat} {ev o rx} (hn : n ≠ 0) (h : ReadPart a n ev o rx) :
    rx.length ≤ n ∧ (rx.length = n ↔ o = .done) ∧
    (o = .done → ev = .out (addrByte a true) true :: (readBytes rx ++ [.stop])) := by
  cases h with
  | ack h =>
    obtain ⟨h1, h2, h3⟩ := reading_counts h
    exact ⟨h1, h2, fun ho => by rw [h3 ho]⟩
  | nak => simp; omega
  | lost => simp; omega
  | error => simp; omega

theorem writing_counts {a : Byte} {n : Nat} {tx ev o k rx} (h : Writing a n tx ev o k rx) :
    k ≤ tx.length ∧ rx.length ≤ n ∧ (n ≠ 0 → (rx.length = n ↔ o = .done)) ∧
    (n = 0 → rx = []) ∧
    (o = .done → k = tx.length ∧ ev = acked tx ++ (if n = 0 then [.stop]
      else .restart :: .out (addrByte a true) true :: (readBytes rx ++ [.stop]))) := by
  induction h with
  | stop h => simp [h, acked]
  | read hn h =>
    obtain ⟨h1, h2, h3⟩ := readPart_counts hn h
    refine ⟨by simp, h1, fun _ => h2, fun h => absurd h hn, fun ho => ⟨rfl, ?_⟩⟩
    rw [h3 ho, if_neg hn]
    rfl
  | ack b _ ih =>
    obtain ⟨h1, h2, h3, h4, h5⟩ := ih
    refine ⟨by simp; omega, h2, h3, h4, fun ho => ?_⟩
    obtain ⟨h6, h7⟩ := h5 ho
    exact ⟨by simp [h6], by rw [h7]; rfl⟩
  | nak b bs => exact ⟨by simp, by simp, fun h => by simp; omega, fun _ => rfl, fun h => by cases h⟩
  | lost b bs => exact ⟨by simp, by simp, fun h => by simp; omega, fun _ => rfl, fun h => by cases h⟩
  | error b bs => exact ⟨by simp, by simp, fun h => by simp; omega, fun _ => rfl, fun h => by cases h⟩

/-- The events of a successful transaction. -/
def transactionEvents (a : Byte) (tx rx : List Byte) : List BusEv :=
  .start :: ((if tx = [] then [] else .out (addrByte a false) true :: acked tx) ++
    (if rx = [] then [] else (if tx = [] then [] else [.restart]) ++ .out (addrByte a true) true :: readBytes rx)) ++ [.stop]

theorem transaction_counts {a : Byte} {n : Nat} {tx ev o k rx} (hne : tx ≠ [] ∨ n ≠ 0) (h : Transaction a tx n ev o k rx) :
    k ≤ tx.length ∧ rx.length ≤ n ∧ (n ≠ 0 → (rx.length = n ↔ o = .done)) ∧ (n = 0 → rx = []) ∧
    (o = .done → k = tx.length ∧ rx.length = n ∧ ev = transactionEvents a tx rx) := by
  cases h with
  | write htx h =>
    obtain ⟨h1, h2, h3, h4, h5⟩ := writing_counts h
    refine ⟨h1, h2, h3, h4, fun ho => ?_⟩
    obtain ⟨h6, h7⟩ := h5 ho
    refine ⟨h6, ?_, ?_⟩
    · by_cases hn : n = 0
      · rw [h4 hn, hn]; rfl
      · exact (h3 hn).2 ho
    · unfold transactionEvents
      rw [if_neg htx, if_neg htx, h7]
      by_cases hn : n = 0
      · rw [if_pos hn, h4 hn]; simp
      · have : rx ≠ [] := by
          rintro rfl
          exact hn (((h3 hn).2 ho).symm)
        rw [if_neg hn, if_neg this]; simp
  | nak htx => exact ⟨by simp, by simp, fun h => by simp; omega, fun _ => rfl, fun h => by cases h⟩
  | lost htx => exact ⟨by simp, by simp, fun h => by simp; omega, fun _ => rfl, fun h => by cases h⟩
  | error htx => exact ⟨by simp, by simp, fun h => by simp; omega, fun _ => rfl, fun h => by cases h⟩
  | read htx h =>
    have hn : n ≠ 0 := hne.resolve_left (fun q => q htx)
    obtain ⟨h1, h2, h3⟩ := readPart_counts hn h
    refine ⟨by simp, h1, fun _ => h2, fun h => absurd h hn, fun ho => ⟨by rw [htx]; rfl, h2.2 ho, ?_⟩⟩
    have : rx ≠ [] := by
      rintro rfl
      exact hn ((h2.2 ho).symm)
    unfold transactionEvents
    rw [h3 ho, if_pos htx, if_neg this, if_pos htx]
    simp

/-! ## The claims -/

/-- **C70 (part).** `Chip_I2C_MasterSend` of at least one byte on a bus with one master: returns, whatever the slaves
do; on the bus there is exactly one write transaction as I2C prescribes (also after a refused byte or a bus error);
the result is the number of bytes put on the bus; the controller is ready again and nothing is stored. -/
theorem C70_send_partial (E : Env) (hE : SingleMaster E) (h : Hw) (hi : Idle h) (a : Byte) (buff : List Byte) (hb : buff ≠ []) :
    ∃ ev o k r, Returns (masterSend E h a buff) r ∧ Transaction a buff 0 ev o k [] ∧ FromSlaves E h.trace ev ∧
      r.h.trace = h.trace ++ ev ∧ r.ret = (k : Int) ∧ Idle r.h ∧ r.rx = [] ∧ r.oob = false ∧
      (o = .done → r.ret = (buff.length : Int) ∧ ev = transactionEvents a buff []) := by
  obtain ⟨ev, o, k, rx, s, ⟨n, h1⟩, h2, ho⟩ := call_spec E hE h hi a buff 0 (Or.inl hb)
  obtain ⟨c1, c2, c3, c4, c5⟩ := transaction_counts (Or.inl hb) h2.bus
  have hrx := c4 rfl
  subst hrx
  have hk : (buff.length : Int) - (s.x.tx.length : Int) = (k : Int) := by
    rw [h2.tx, List.length_drop]
    have : k ≤ buff.length := c1
    show (buff.length : Int) - ((buff.length - k : Nat) : Int) = k
    omega
  refine ⟨ev, o, k, ⟨s.h, (buff.length : Int) - s.x.tx.length, s.x.rx, s.x.oob⟩, ⟨n, fun m hm => ?_⟩, h2.bus, h2.slaves, h2.trace,
    hk, h2.idle, ?_, ?_, fun hd => ?_⟩
  · show (retry E m m h (xfer a buff 0)).map _ = _
    rw [show retry E m m h (xfer a buff 0) = some s from h1 m hm]
    rfl
  · exact h2.same.stored
  · exact h2.same.oob
  · obtain ⟨d1, -, d3⟩ := c5 hd
    have d1 : k = buff.length := d1
    exact ⟨hk.trans (by rw [d1]), d3⟩

theorem call_read (E : Env) (hE : SingleMaster E) (h : Hw) (hi : Idle h) (a : Byte) (tx : List Byte) (n : Nat) (hn : n ≠ 0) :
    ∃ ev o k rx s, Returns (fun m => (retry E m m h (xfer a tx n)).map fun s => (⟨s.h, (n : Int) - s.x.rxSz, s.x.rx, s.x.oob⟩ : Result)) s ∧
      Transaction a tx n ev o k rx ∧ FromSlaves E h.trace ev ∧ s.h.trace = h.trace ++ ev ∧ Idle s.h ∧
      s.rx = rx ∧ s.ret = (rx.length : Int) ∧ rx.length ≤ n ∧ s.oob = false ∧
      (s.ret = (n : Int) ↔ o = .done) ∧ (o = .done → ev = transactionEvents a tx rx) := by
  obtain ⟨ev, o, k, rx, s, ⟨m0, h1⟩, h2, ho⟩ := call_spec E hE h hi a tx n (Or.inr hn)
  obtain ⟨c1, c2, c3, c4, c5⟩ := transaction_counts (Or.inr hn) h2.bus
  have hret : (n : Int) - s.x.rxSz = (rx.length : Int) := by
    rw [h2.same.rxSz]
    show (n : Int) - ((n : Int) - _) = _
    omega
  refine ⟨ev, o, k, rx, ⟨s.h, (n : Int) - s.x.rxSz, s.x.rx, s.x.oob⟩, ⟨m0, fun m hm => ?_⟩, h2.bus, h2.slaves, h2.trace, h2.idle,
    ?_, hret, c2, h2.same.oob, ?_, fun hd => (c5 hd).2.2⟩
  · show (retry E m m h (xfer a tx n)).map _ = _
    rw [show retry E m m h (xfer a tx n) = some s from h1 m hm]
    rfl
  · exact h2.same.stored
  · rw [← c3 hn]
    show (n : Int) - s.x.rxSz = (n : Int) ↔ _
    rw [hret]
    omega

/-- **C70 (part).** `Chip_I2C_MasterRead` of at least one byte on a bus with one master: returns, whatever the slaves do;
on the bus there is exactly one read transaction; the buffer holds exactly the bytes the slave sent, in order, and the
result is their number, never more than asked for. The result is `n` exactly if the transaction was complete. -/
theorem C70_read_partial (E : Env) (hE : SingleMaster E) (h : Hw) (hi : Idle h) (a : Byte) (n : Nat) (hn : n ≠ 0) :
    ∃ ev o k rx r, Returns (masterRead E h a n) r ∧ Transaction a [] n ev o k rx ∧ FromSlaves E h.trace ev ∧
      r.h.trace = h.trace ++ ev ∧ Idle r.h ∧ r.rx = rx ∧ r.ret = (rx.length : Int) ∧ rx.length ≤ n ∧ r.oob = false ∧
      (r.ret = (n : Int) ↔ o = .done) ∧ (o = .done → ev = transactionEvents a [] rx) :=
  call_read E hE h hi a [] n hn

/-- **C70 (part).** `Chip_I2C_MasterWriteRead` reading at least one byte: the same with a write part first and a repeated
START between the parts. In particular if the result is `n`, every byte of `cmd` was acknowledged. -/
theorem C70_writeRead_partial (E : Env) (hE : SingleMaster E) (h : Hw) (hi : Idle h) (a : Byte) (cmd : List Byte) (n : Nat)
    (hn : n ≠ 0) :
    ∃ ev o k rx r, Returns (masterWriteRead E h a cmd n) r ∧ Transaction a cmd n ev o k rx ∧ FromSlaves E h.trace ev ∧
      r.h.trace = h.trace ++ ev ∧ Idle r.h ∧ r.rx = rx ∧ r.ret = (rx.length : Int) ∧ rx.length ≤ n ∧ r.oob = false ∧
      (r.ret = (n : Int) ↔ o = .done) ∧ (o = .done → ev = transactionEvents a cmd rx) :=
  call_read E hE h hi a cmd n hn

/-- **C70 (part).** `Chip_I2C_MasterCmdRead`: the same with one command byte. -/
theorem C70_cmdRead_partial (E : Env) (hE : SingleMaster E) (h : Hw) (hi : Idle h) (a cmd : Byte) (n : Nat) (hn : n ≠ 0) :
    ∃ ev o k rx r, Returns (masterCmdRead E h a cmd n) r ∧ Transaction a [cmd] n ev o k rx ∧ FromSlaves E h.trace ev ∧
      r.h.trace = h.trace ++ ev ∧ Idle r.h ∧ r.rx = rx ∧ r.ret = (rx.length : Int) ∧ rx.length ≤ n ∧ r.oob = false ∧
      (r.ret = (n : Int) ↔ o = .done) ∧ (o = .done → ev = transactionEvents a [cmd] rx) :=
  call_read E hE h hi a [cmd] n hn

/-! ### Refused bytes -/

theorem writing_nak {a : Byte} {tx ev o k rx} (h : Writing a 0 tx ev o k rx) : o = .nak →
    ∃ pre b post, tx = pre ++ b :: post ∧ ev = acked pre ++ [.out b false, .stop] ∧ k = pre.length + 1 := by
  induction h with
  | stop => intro h; cases h
  | read hn => exact absurd rfl hn
  | ack b _ ih =>
    intro ho
    obtain ⟨pre, c, post, h1, h2, h3⟩ := ih ho
    exact ⟨b :: pre, c, post, by rw [h1]; rfl, by rw [h2]; rfl, by rw [h3]; rfl⟩
  | nak b bs => intro _; exact ⟨[], b, bs, rfl, rfl, rfl⟩
  | lost b bs => intro h; cases h
  | error b bs => intro h; cases h

theorem reading_error {n : Nat} {ev o rx} (h : Reading n ev o rx) : o = .error → BusEv.error ∈ ev := by
  induction h with
  | last b => intro h; cases h
  | more b _ ih => intro h; exact List.mem_cons_of_mem _ (ih h)
  | lost n => intro h; cases h
  | error n => intro _; simp

theorem writing_error {a : Byte} {n : Nat} {tx ev o k rx} (h : Writing a n tx ev o k rx) : o = .error → BusEv.error ∈ ev := by
  induction h with
  | stop => intro h; cases h
  | read _ h =>
    intro q
    refine List.mem_cons_of_mem _ ?_
    cases h with
    | ack h => exact List.mem_cons_of_mem _ (reading_error h q)
    | nak => cases q
    | lost => cases q
    | error => simp
  | ack b _ ih => intro h; exact List.mem_cons_of_mem _ (ih h)
  | nak => intro h; cases h
  | lost => intro h; cases h
  | error => intro _; simp

/-- **C70 (violated part).** The result of `Chip_I2C_MasterSend` is documented as the number of bytes successfully
transferred. If the slave refuses a data byte the result counts the refused byte too. -/
theorem C70_refused_byte_counted (E : Env) (hE : Quiet E) (h : Hw) (hi : Idle h) (a : Byte) (buff : List Byte) (hb : buff ≠ []) :
    ∃ ev r, Returns (masterSend E h a buff) r ∧ r.h.trace = h.trace ++ ev ∧
      (ev = transactionEvents a buff [] ∧ r.ret = (buff.length : Int) ∨
       ev = [.start, .out (addrByte a false) false, .stop] ∧ r.ret = 0 ∨
       ∃ pre b post, buff = pre ++ b :: post ∧
         ev = .start :: .out (addrByte a false) true :: (acked pre ++ [.out b false, .stop]) ∧ r.ret = (pre.length : Int) + 1) := by
  obtain ⟨ev, o, k, r, h1, h2, h3, h4, h5, h6, h7, h8, h9⟩ :=
    C70_send_partial E (fun t => by rw [hE t]; simp) h hi a buff hb
  have hne : ∀ {ev : List BusEv} t, FromSlaves E t ev → BusEv.lost ∉ ev ∧ BusEv.error ∉ ev := by
    intro ev
    induction ev with
    | nil => intro t _; simp
    | cons e ev ih =>
      intro t h
      have := ih _ h.2
      have h1 := h.1
      cases e <;> simp [hE t] at h1 ⊢ <;> exact this
  refine ⟨ev, r, h1, h4, ?_⟩
  cases o with
  | done => exact Or.inl ⟨(h9 rfl).2, (h9 rfl).1⟩
  | lost => exact absurd (transaction_lost h2) (hne _ h3).1
  | error =>
    exfalso
    cases h2 with
    | write _ h => exact (hne _ h3).2 (List.mem_cons_of_mem _ (List.mem_cons_of_mem _ (writing_error h rfl)))
    | error => exact (hne _ h3).2 (by simp)
    | read h => exact hb h
  | nak =>
    cases h2 with
    | write _ h =>
      obtain ⟨pre, b, post, q1, q2, q3⟩ := writing_nak h rfl
      exact Or.inr (Or.inr ⟨pre, b, post, q1, by rw [q2], by rw [h5, q3]; simp⟩)
    | nak => exact Or.inr (Or.inl ⟨rfl, by rw [h5]; rfl⟩)
    | read h => exact absurd h hb

/-! ### Nothing to transfer -/

theorem transfer_empty (E : Env) (h : Hw) (hi : Idle h) (x : Xfer) (htx : x.tx = []) (hsz : x.rxSz = 0)
    (hf1 : E.fault (h.trace ++ [.start]) = none) (hack : E.ack (h.trace ++ [.start]) = true)
    (hf2 : E.fault (h.trace ++ [.start, .out (addrByte x.addr true) true]) = none) :
    ∃ s, Returns (fun m => transfer E m h x) s ∧ s.x.status = .done ∧
      s.x.rx = x.rx ++ [E.data (h.trace ++ [.start, .out (addrByte x.addr true) true])] ∧
      s.x.oob = true ∧ s.x.rxSz = -1 ∧ s.x.tx = [] ∧
      s.h.trace = h.trace ++ [.start, .out (addrByte x.addr true) true,
        .inp (E.data (h.trace ++ [.start, .out (addrByte x.addr true) true])) false, .stop] := by
  generalize hx' : ({ x with status := .busy } : Xfer) = x'
  have hb : x'.status = .busy := by rw [← hx']
  have hx : x'.addr = x.addr ∧ x'.tx = [] ∧ x'.rx = x.rx ∧ x'.rxSz = 0 := by
    rw [← hx']; exact ⟨rfl, htx, rfl, hsz⟩
  have st : Steps E ⟨startMaster h, x'⟩ _ := Steps.hw hb rfl
  have e1 : hwStep E (startMaster h) = ⟨0x08, true, true, false, false, h.dat, h.trace ++ [.start]⟩ := by
    have : (startMaster h).released = true := by
      rcases hi.1 with q | q <;> simp [Hw.released, startMaster, q]
    simp only [hwStep, this]
    simp [startMaster]
  dsimp only at st
  rw [e1] at st
  have st := st.trans (Steps.handle (E := E) hb rfl)
  have e2 : handle ⟨⟨0x08, true, true, false, false, h.dat, h.trace ++ [.start]⟩, x'⟩ =
      ⟨⟨0x08, false, false, false, false, addrByte x.addr true, h.trace ++ [.start]⟩, x'⟩ := by
    unfold handle
    rw [if_pos (Or.inl rfl), if_pos hx.2.1, hx.1, (addr_read x.addr).1]
    rfl
  rw [e2] at st
  have st := st.trans (Steps.hw (E := E) hb rfl)
  have e3 : hwStep E ⟨0x08, false, false, false, false, addrByte x.addr true, h.trace ++ [.start]⟩ =
      ⟨0x40, true, false, false, false, addrByte x.addr true, h.trace ++ [.start, .out (addrByte x.addr true) true]⟩ := by
    have hb0 := (addr_read x.addr).2
    generalize addrByte x.addr true = d at hb0
    simp only [hwStep, hb0, sendByte, hf1, hack]
    simp
  dsimp only at st
  rw [e3] at st
  have st := st.trans (Steps.handle (E := E) hb rfl)
  have e4 : handle ⟨⟨0x40, true, false, false, false, addrByte x.addr true, h.trace ++ [.start, .out (addrByte x.addr true) true]⟩, x'⟩ =
      ⟨⟨0x40, false, false, false, false, addrByte x.addr true, h.trace ++ [.start, .out (addrByte x.addr true) true]⟩, x'⟩ := by
    simp [handle, control, hx.2.2.2]
  rw [e4] at st
  have st := st.trans (Steps.hw (E := E) hb rfl)
  generalize hd : E.data (h.trace ++ [.start, .out (addrByte x.addr true) true]) = d
  have e5 : hwStep E ⟨0x40, false, false, false, false, addrByte x.addr true, h.trace ++ [.start, .out (addrByte x.addr true) true]⟩ =
      ⟨0x58, true, false, false, false, d, h.trace ++ [.start, .out (addrByte x.addr true) true, .inp d false]⟩ := by
    simp [hwStep, recvByte, hf2, hd]
  dsimp only at st
  rw [e5] at st
  have st := st.trans (Steps.handle (E := E) hb rfl)
  have e6 : handle ⟨⟨0x58, true, false, false, false, d, h.trace ++ [.start, .out (addrByte x.addr true) true, .inp d false]⟩, x'⟩ =
      ⟨⟨0x58, false, false, true, false, d, h.trace ++ [.start, .out (addrByte x.addr true) true, .inp d false]⟩,
        { x' with status := .done, rx := x.rx ++ [d], rxSz := -1, oob := true }⟩ := by
    simp [handle, control, storeByte, finish, hx.2.2.2, hx.2.2.1, hb]
  rw [e6] at st
  have en : Ended E h.trace [.start, .out (addrByte x.addr true) true, .inp d false, .stop] .done
      ⟨⟨0x58, false, false, true, false, d, h.trace ++ [.start, .out (addrByte x.addr true) true, .inp d false]⟩,
        { x' with status := .done, rx := x.rx ++ [d], rxSz := -1, oob := true }⟩ :=
    ⟨rfl, Or.inr ⟨rfl, rfl, by simp [hwStep]⟩⟩
  rw [← hx'] at st en
  obtain ⟨s', r1, r2, r3, r4⟩ := transfer_ends st en
  exact ⟨s', r1, by rw [r2], by rw [r2], by rw [r2], by rw [r2], by rw [r2]; exact htx, r4⟩

/-- **C70 (violated part).** With nothing to send or to read the functions do not do nothing: a slave that acknowledges is
*read*, one byte is stored beyond the end of the buffer (for `Chip_I2C_MasterSend` through a null pointer: i2c.cpp:557
sets no `rxBuff`), and `Chip_I2C_MasterRead` reports one byte. -/
theorem C70_empty_transfer (E : Env) (hE : Quiet E) (h : Hw) (hi : Idle h) (a : Byte) (hack : E.ack (h.trace ++ [.start]) = true) :
    ∃ b, (∃ r, Returns (masterSend E h a []) r ∧ r.oob = true ∧ r.rx = [b] ∧ r.ret = 0 ∧
        r.h.trace = h.trace ++ transactionEvents a [] [b]) ∧
      (∃ r, Returns (masterRead E h a 0) r ∧ r.oob = true ∧ r.rx = [b] ∧ r.ret = 1 ∧
        r.h.trace = h.trace ++ transactionEvents a [] [b]) := by
  obtain ⟨s, h1, h2, h3, h4, h5, h6, h7⟩ := transfer_empty E h hi (xfer a [] 0) rfl rfl (hE _) hack (hE _)
  obtain ⟨n, h1⟩ := retry_once h1 (by rw [h2]; simp)
  have e : ∀ m, n ≤ m → retry E m m h (xfer a [] 0) = some s := fun m hm => h1 m hm
  refine ⟨_, ⟨⟨s.h, ([] : List Byte).length - (s.x.tx.length : Int), s.x.rx, s.x.oob⟩, ⟨n, fun m hm => ?_⟩, h4, h3, ?_, h7⟩,
    ⟨⟨s.h, ((0 : Nat) : Int) - s.x.rxSz, s.x.rx, s.x.oob⟩, ⟨n, fun m hm => ?_⟩, h4, h3, ?_, h7⟩⟩
  · show (retry E m m h (xfer a [] 0)).map _ = _
    rw [e m hm]; rfl
  · show _ - (s.x.tx.length : Int) = 0
    rw [h6]; rfl
  · show (retry E m m h (xfer a [] 0)).map _ = _
    rw [e m hm]; rfl
  · show ((0 : Nat) : Int) - s.x.rxSz = 1
    rw [h5]; rfl

/-! ### Several masters -/

theorem retry_again {E : Env} {h : Hw} {x : Xfer} {s s' : St} (h1 : Returns (fun m => transfer E m h x) s)
    (h2 : s.x.status = .arbLost) (h3 : Returns (fun m => transfer E m s.h s.x) s') (h4 : s'.x.status ≠ .arbLost) :
    Returns (fun m => retry E m m h x) s' := by
  obtain ⟨n, h1⟩ := h1
  obtain ⟨n', h3⟩ := h3
  refine ⟨max n n' + 2, fun m hm => ?_⟩
  obtain ⟨k, rfl⟩ : ∃ k, m = k + 2 := ⟨m - 2, by omega⟩
  show retry E (k + 2) (k + 1 + 1) h x = some s'
  rw [retry, show transfer E (k + 2) h x = some s from h1 _ (by omega)]
  show (if s.x.status = .arbLost then retry E (k + 2) (k + 1) s.h s.x else some s) = _
  rw [if_pos h2, retry, show transfer E (k + 2) s.h s.x = some s' from h3 _ (by omega)]
  exact if_neg h4

theorem slaves_lost_once {E : Env} {t0 : List BusEv} (hE : ∀ t, E.fault (t0 ++ t) = some .lost → BusEv.lost ∉ t) :
    ∀ ev t, FromSlaves E (t0 ++ t) ev → BusEv.lost ∈ t → BusEv.lost ∉ ev := by
  intro ev
  induction ev with
  | nil => intro t _ _ h; simp at h
  | cons e ev ih =>
    intro t h ht hm
    rcases List.mem_cons.1 hm with rfl | hm
    · exact hE t h.1 ht
    · have h2 := h.2
      rw [List.append_assoc] at h2
      exact ih _ h2 (by simp [ht]) hm

/-- **C70 (violated part: what a lost arbitration does to a sending).** If another master takes the bus (once) after `k`
of the bytes were put on the bus, the second attempt is a complete transaction, but only of the bytes after those `k`:
the slave never gets the byte the arbitration was lost in, nor the ones before it in the same message, and yet the
result is that of both attempts together. Only with `k = 0` (arbitration lost in the address byte) is it the message. -/
theorem C70_lost_arbitration (E : Env) (h : Hw) (hi : Idle h) (hE : ∀ t, E.fault (h.trace ++ t) = some .lost → BusEv.lost ∉ t)
    (a : Byte) (buff : List Byte) (hb : buff ≠ []) :
    ∃ ev o k, Transaction a buff 0 ev o k [] ∧ FromSlaves E h.trace ev ∧
      (o ≠ .lost → ∃ r, Returns (masterSend E h a buff) r ∧ r.h.trace = h.trace ++ ev ∧ r.ret = (k : Int) ∧ r.oob = false) ∧
      (o = .lost → k < buff.length → ∃ ev2 o2 k2 r, Returns (masterSend E h a buff) r ∧
        Transaction a (buff.drop k) 0 ev2 o2 k2 [] ∧ FromSlaves E (h.trace ++ ev) ev2 ∧ o2 ≠ .lost ∧
        r.h.trace = h.trace ++ ev ++ ev2 ∧ r.ret = (k : Int) + k2 ∧ r.oob = false) ∧
      (o = .lost → k = buff.length → (∀ t, E.fault (h.trace ++ ev ++ t) = none) →
        E.ack (h.trace ++ ev ++ [.start]) = true → ∃ b r, Returns (masterSend E h a buff) r ∧
        r.h.trace = h.trace ++ ev ++ transactionEvents a [] [b] ∧ r.ret = (buff.length : Int) ∧ r.oob = true) := by
  obtain ⟨ev, o, k, rx, s, h1, h2⟩ := transfer_spec E h hi (xfer a buff 0) 0 rfl (Or.inl hb)
  obtain ⟨c1, c2, c3, c4, c5⟩ := transaction_counts (Or.inl hb) h2.bus
  have hrx := c4 rfl
  subst hrx
  have c1 : k ≤ buff.length := c1
  have htx : s.x.tx = buff.drop k := h2.tx
  have hres : ∀ {s' : St}, Returns (fun m => retry E m m h (xfer a buff 0)) s' →
      Returns (masterSend E h a buff) ⟨s'.h, (buff.length : Int) - s'.x.tx.length, s'.x.rx, s'.x.oob⟩ := by
    rintro s' ⟨n, q⟩
    refine ⟨n, fun m hm => ?_⟩
    show (retry E m m h (xfer a buff 0)).map _ = _
    rw [show retry E m m h (xfer a buff 0) = some s' from q m hm]
    rfl
  have hoob : s.x.oob = false := h2.same.oob
  have hsz : s.x.rxSz = ((0 : Nat) : Int) := by
    rw [h2.same.rxSz]; rfl
  refine ⟨ev, o, k, h2.bus, h2.slaves, fun ho => ?_, fun ho hk => ?_, fun ho hk hq hack => ?_⟩
  · refine ⟨_, hres (retry_once h1 ?_), h2.trace, ?_, hoob⟩
    · rw [h2.status]; cases o <;> simp [report] at ho ⊢
    · show (buff.length : Int) - s.x.tx.length = k
      rw [htx, List.length_drop]; omega
  · subst ho
    obtain ⟨ev2, o2, k2, rx2, s2, g1, g2⟩ := transfer_spec E s.h h2.idle s.x 0 hsz
      (Or.inl (by rw [htx]; intro q; rw [List.drop_eq_nil_iff] at q; omega))
    obtain ⟨d1, d2, d3, d4, d5⟩ := transaction_counts (Or.inl (by rw [htx]; intro q; rw [List.drop_eq_nil_iff] at q; omega)) g2.bus
    have hrx2 := d4 rfl
    subst hrx2
    have gs := g2.slaves
    have gb := g2.bus
    rw [h2.trace] at gs
    rw [htx, show s.x.addr = a from h2.same.addr] at gb
    have ho2 : o2 ≠ .lost := by
      rintro rfl
      exact slaves_lost_once hE _ _ gs (transaction_lost h2.bus) (transaction_lost gb)
    rw [htx, List.length_drop] at d1
    refine ⟨ev2, o2, k2, _, hres (retry_again h1 (by rw [h2.status]; rfl) g1 ?_), gb, gs, ho2, ?_, ?_, ?_⟩
    · rw [g2.status]; cases o2 <;> simp [report] at ho2 ⊢
    · show s2.h.trace = _
      rw [g2.trace, h2.trace]
    · show (buff.length : Int) - s2.x.tx.length = _
      rw [g2.tx, htx, List.length_drop, List.length_drop]; omega
    · show s2.x.oob = false
      rw [g2.same.oob, hoob]
  · subst ho
    have hf : ∀ t, E.fault (s.h.trace ++ t) = none := by
      intro t
      rw [h2.trace]
      exact hq t
    obtain ⟨s2, g1, g2, g3, g4, g5, g6, g7⟩ := transfer_empty E s.h h2.idle s.x (by rw [htx, hk, List.drop_length]) hsz (hf _)
      (by rw [h2.trace]; exact hack) (hf _)
    refine ⟨E.data (s.h.trace ++ [.start, .out (addrByte s.x.addr true) true]), _,
      hres (retry_again h1 (by rw [h2.status]; rfl) g1 (by rw [g2]; simp)), ?_, ?_, g4⟩
    · show s2.h.trace = _
      rw [g7, h2.trace, show s.x.addr = a from h2.same.addr]
      rfl
    · show (buff.length : Int) - s2.x.tx.length = _
      rw [g6]; simp

/-! ### The clock -/

/-- **C70 (part).** `Chip_I2C_SetClockRate` with a rate not above the controller's clock: high and low time differ by at
most one tick, and the rate on the bus (what `Chip_I2C_GetClockRate` reports) is the one asked for, or the next one above
it that is possible: a period one tick longer would be slower than asked for. -/
theorem C70_clock (clk rate : Nat) (h0 : 0 < rate) (h1 : rate ≤ clk) :
    (setClockRate clk rate).1 ≤ (setClockRate clk rate).2 ∧ (setClockRate clk rate).2 ≤ (setClockRate clk rate).1 + 1 ∧
    rate ≤ getClockRate clk (setClockRate clk rate) ∧
    ∀ q, (setClockRate clk rate).1 + (setClockRate clk rate).2 < q → clk < rate * q := by
  have hs : (setClockRate clk rate).1 + (setClockRate clk rate).2 = clk / rate := by
    simp only [setClockRate]; generalize clk / rate = q; omega
  refine ⟨by simp only [setClockRate]; generalize clk / rate = q; omega, by simp only [setClockRate]; generalize clk / rate = q; omega,
    ?_, ?_⟩
  · unfold getClockRate
    rw [hs, Nat.le_div_iff_mul_le (Nat.div_pos h1 h0), Nat.mul_comm]
    exact Nat.div_mul_le_self clk rate
  · intro q hq
    rw [hs] at hq
    rw [Nat.mul_comm]
    exact (Nat.div_lt_iff_lt_mul h0).1 hq

/-! ## Examples -/

/-- A slave at address 0x45 that acknowledges everything addressed to it and sends 1, 2, 3, … -/
def sensor : Env :=
  { ack := fun t => match t with
      | [.start] => true
      | .start :: .out b _ :: _ => b = 0x8a#8 || b = 0x8b#8
      | _ => false
    data := fun t => BitVec.ofNat 8 ((t.filter fun e => match e with | .inp _ _ => true | _ => false).length + 1)
    fault := fun _ => none }

/-- The controller after `Chip_I2C_Init`. -/
def fresh : Hw := ⟨0xf8, false, false, false, false, 0#8, []⟩

example : Quiet sensor ∧ SingleMaster sensor ∧ Idle fresh :=
  ⟨fun _ => rfl, fun t => by simp [sensor], Or.inl rfl, rfl⟩

/-- `C70_send_partial` applied. -/
example : (masterSend sensor fresh 0x45#8 [0xfd#8, 7#8] 40).map (fun r => (r.ret, r.h.trace, r.oob)) =
    some (2, [.start, .out 0x8a#8 true, .out 0xfd#8 true, .out 7#8 true, .stop], false) := by decide +kernel

/-- `C70_writeRead_partial` and `C70_cmdRead_partial` applied. -/
example : (masterCmdRead sensor fresh 0x45#8 0xfd#8 2 40).map (fun r => (r.ret, r.rx, r.h.trace)) =
    some (2, [1#8, 2#8], [.start, .out 0x8a#8 true, .out 0xfd#8 true, .restart, .out 0x8b#8 true, .inp 1#8 true, .inp 2#8 false, .stop]) := by
  decide +kernel

/-- `C70_read_partial` applied. -/
example : (masterRead sensor fresh 0x45#8 3 40).map (fun r => (r.ret, r.rx, r.h.trace)) =
    some (3, [1#8, 2#8, 3#8], [.start, .out 0x8b#8 true, .inp 1#8 true, .inp 2#8 true, .inp 3#8 false, .stop]) := by
  decide +kernel

/-- A slave that refuses everything after its address. -/
def refusing : Env := { sensor with ack := fun t => t.length < 2 }

/-- `C70_refused_byte_counted` applied: the only data byte is refused and counted. -/
example : Quiet refusing ∧ (masterSend refusing fresh 0x45#8 [7#8] 40).map (fun r => (r.ret, r.h.trace)) =
    some (1, [.start, .out 0x8a#8 true, .out 7#8 false, .stop]) := ⟨fun _ => rfl, by decide +kernel⟩

/-- `C70_empty_transfer` applied. -/
example : (masterSend sensor fresh 0x45#8 [] 40).map (fun r => (r.ret, r.rx, r.oob, r.h.trace)) =
    some (0, [1#8], true, [.start, .out 0x8b#8 true, .inp 1#8 false, .stop]) := by decide +kernel

/-- Another master wins in the third byte of the first transaction. -/
def rival : Env := { sensor with ack := fun _ => true, fault := fun t => if t.length = 3 ∧ BusEv.lost ∉ t then some .lost else none }

/-- `C70_lost_arbitration` applied: of 1, 2, 3 the slave gets 1, then in a new message 3. The result is 3. -/
example : (masterSend rival fresh 0x45#8 [1#8, 2#8, 3#8] 40).map (fun r => (r.ret, r.h.trace)) =
    some (3, [.start, .out 0x8a#8 true, .out 1#8 true, .lost, .start, .out 0x8a#8 true, .out 3#8 true, .stop]) := by decide +kernel

example : ∀ t, rival.fault (fresh.trace ++ t) = some .lost → BusEv.lost ∉ t := by
  intro t h
  simp only [rival, fresh, List.nil_append] at h
  split at h
  · exact (by assumption : _ ∧ _).2
  · cases h

/-- …and in the last byte: then the second attempt reads. -/
example : (masterSend rival fresh 0x45#8 [1#8, 2#8] 40).map (fun r => (r.ret, r.oob, r.h.trace)) =
    some (2, true, [.start, .out 0x8a#8 true, .out 1#8 true, .lost, .start, .out 0x8b#8 true, .inp 1#8 false, .stop]) := by
  decide +kernel

/-- 48 MHz and 400 kHz. -/
example : setClockRate 48000000 400000 = (60, 60) ∧ getClockRate 48000000 (60, 60) = 400000 := by decide +kernel

end Verif.I2c
