import Verif.I2c.Spec

namespace Verif.I2c

open Verif

/-- From `s` the polling loop comes to `s'`. -/
def Steps (E : Env) (s s' : St) : Prop := ∃ n, ∀ m, poll E (m + n) s = poll E m s'

theorem Steps.refl (E : Env) (s : St) : Steps E s s := ⟨0, fun _ => rfl⟩

theorem Steps.trans {E : Env} {a b c : St} (h : Steps E a b) (k : Steps E b c) : Steps E a c := by
  obtain ⟨n, h⟩ := h
  obtain ⟨m, k⟩ := k
  refine ⟨m + n, fun i => ?_⟩
  rw [← Nat.add_assoc, h, k]

theorem Steps.handle {E : Env} {s : St} (h1 : s.x.status = .busy) (h2 : s.h.si = true) : Steps E s (handle s) := by
  refine ⟨1, fun m => ?_⟩
  show poll E (m + 1) s = _
  rw [poll, if_neg (by simp [h1]), if_pos h2]

theorem Steps.hw {E : Env} {s : St} (h1 : s.x.status = .busy) (h2 : s.h.si = false) :
    Steps E s { s with h := hwStep E s.h } := by
  refine ⟨1, fun m => ?_⟩
  show poll E (m + 1) s = _
  rw [poll, if_neg (by simp [h1]), if_neg (by simp [h2])]

theorem Steps.end_ {E : Env} {s s' : St} (h : Steps E s s') (h1 : s'.x.status ≠ .busy) : Returns (fun n => poll E n s) s' := by
  obtain ⟨n, h⟩ := h
  refine ⟨n + 1, fun m hm => ?_⟩
  obtain ⟨k, rfl⟩ : ∃ k, m = (k + 1) + n := ⟨m - n - 1, by omega⟩
  show poll E _ s = _
  rw [h, poll, if_pos h1]

/-- How the transfer is reported. -/
def report : Outcome → Status
  | .done => .done
  | .nak => .nak
  | .lost => .arbLost
  | .error => .busErr

/-- The state when the polling loop ends: the STOP, if there is one, is still to come. -/
structure Ended (E : Env) (t ev : List BusEv) (o : Outcome) (s : St) : Prop where
  status : s.x.status = report o
  /-- what is on the bus when the controller has obeyed -/
  settled : (s.h.sto = false ∧ s.h.stat = 0x38 ∧ s.h.trace = t ++ ev) ∨
    (s.h.si = false ∧ s.h.sto = true ∧ (hwStep E s.h).trace = t ++ ev)

theorem FromSlaves.cons {E : Env} {t : List BusEv} {e : BusEv} {ev : List BusEv}
    (h1 : FromSlaves E t [e]) (h2 : FromSlaves E (t ++ [e]) ev) : FromSlaves E t (e :: ev) := ⟨h1.1, h2⟩

/-- The controller after sending a byte. -/
theorem sendByte_cases (E : Env) (h : Hw) (a n : Nat) :
    (∃ k, sendByte E h a n = { h with stat := if k then a else n, si := true, trace := h.trace ++ [.out h.dat k] } ∧
      FromSlaves E h.trace [.out h.dat k]) ∨
    (sendByte E h a n = { h with stat := 0x38, si := true, trace := h.trace ++ [.lost] } ∧ FromSlaves E h.trace [.lost]) ∨
    (sendByte E h a n = { h with stat := 0x00, si := true, trace := h.trace ++ [.error] } ∧ FromSlaves E h.trace [.error]) := by
  unfold sendByte
  cases hf : E.fault h.trace with
  | none => exact Or.inl ⟨E.ack h.trace, rfl, ⟨hf, rfl⟩, trivial⟩
  | some f =>
    cases f with
    | lost => exact Or.inr (Or.inl ⟨rfl, hf, trivial⟩)
    | error => exact Or.inr (Or.inr ⟨rfl, hf, trivial⟩)

theorem recvByte_cases (E : Env) (h : Hw) :
    (∃ b, recvByte E h = { h with stat := if h.aa then 0x50 else 0x58, si := true, dat := b, trace := h.trace ++ [.inp b h.aa] } ∧
      FromSlaves E h.trace [.inp b h.aa]) ∨
    (recvByte E h = { h with stat := 0x38, si := true, trace := h.trace ++ [.lost] } ∧ FromSlaves E h.trace [.lost]) ∨
    (recvByte E h = { h with stat := 0x00, si := true, trace := h.trace ++ [.error] } ∧ FromSlaves E h.trace [.error]) := by
  unfold recvByte
  cases hf : E.fault h.trace with
  | none => exact Or.inl ⟨E.data h.trace, rfl, ⟨hf, rfl⟩, trivial⟩
  | some f =>
    cases f with
    | lost => exact Or.inr (Or.inl ⟨rfl, hf, trivial⟩)
    | error => exact Or.inr (Or.inr ⟨rfl, hf, trivial⟩)

/-- The three ways a transaction ends without success. -/
theorem end_lost {E : Env} {s0 s : St} (st : Steps E s0 s) (hb : s.x.status = .busy) (hs : s.h.si = true) (h : s.h.stat = 0x38)
    {t ev} (ht : s.h.trace = t ++ ev) :
    ∃ s', Steps E s0 s' ∧ Ended E t ev .lost s' ∧ s'.x.rx = s.x.rx ∧ s'.x.rxSz = s.x.rxSz ∧ s'.x.tx = s.x.tx ∧
      s'.x.oob = s.x.oob ∧ s'.x.addr = s.x.addr := by
  refine ⟨_, st.trans (Steps.handle hb hs), ⟨?_, Or.inl ⟨?_, ?_, ?_⟩⟩, ?_, ?_, ?_, ?_, ?_⟩ <;> simp [handle, h, control, report, ht]

theorem end_error {E : Env} {s0 s : St} (st : Steps E s0 s) (hb : s.x.status = .busy) (hs : s.h.si = true) (h : s.h.stat = 0x00)
    {t ev} (ht : s.h.trace = t ++ ev) :
    ∃ s', Steps E s0 s' ∧ Ended E t ev .error s' ∧ s'.x.rx = s.x.rx ∧ s'.x.rxSz = s.x.rxSz ∧ s'.x.tx = s.x.tx ∧
      s'.x.oob = s.x.oob ∧ s'.x.addr = s.x.addr := by
  refine ⟨_, st.trans (Steps.handle hb hs), ⟨?_, Or.inr ⟨?_, ?_, ?_⟩⟩, ?_, ?_, ?_, ?_, ?_⟩ <;> simp [handle, h, control, report, ht, hwStep]

theorem end_nak {E : Env} {s0 s : St} (st : Steps E s0 s) (hb : s.x.status = .busy) (hs : s.h.si = true)
    (h : s.h.stat = 0x20 ∨ s.h.stat = 0x30 ∨ s.h.stat = 0x48) {t ev} (ht : s.h.trace = t ++ ev) :
    ∃ s', Steps E s0 s' ∧ Ended E t (ev ++ [.stop]) .nak s' ∧ s'.x.rx = s.x.rx ∧ s'.x.rxSz = s.x.rxSz ∧ s'.x.tx = s.x.tx ∧
      s'.x.oob = s.x.oob ∧ s'.x.addr = s.x.addr := by
  rcases h with h | h | h <;>
    (refine ⟨_, st.trans (Steps.handle hb hs), ⟨?_, Or.inr ⟨?_, ?_, ?_⟩⟩, ?_, ?_, ?_, ?_, ?_⟩ <;>
      simp [handle, h, control, report, ht, hwStep])

theorem Ended.shift {E : Env} {t ev : List BusEv} {e : BusEv} {o : Outcome} {s : St} (h : Ended E (t ++ [e]) ev o s) :
    Ended E t (e :: ev) o s := by
  refine ⟨h.status, ?_⟩
  have := h.settled
  simpa using this

/-- Nothing but the reception changed. -/
structure SameX (x x' : Xfer) (rx : List Byte) : Prop where
  stored : x'.rx = x.rx ++ rx
  rxSz : x'.rxSz = x.rxSz - rx.length
  oob : x'.oob = x.oob
  addr : x'.addr = x.addr

theorem reading {E : Env} (n : Nat) : ∀ (s : St), s.x.status = .busy → s.h.si = false → s.h.sta = false → s.h.sto = false →
    (s.h.stat = 0x40 ∨ s.h.stat = 0x50) → s.h.aa = decide (n + 1 > 1) → s.x.rxSz = ((n + 1 : Nat) : Int) →
    ∃ ev o rx s', Steps E s s' ∧ Reading (n + 1) ev o rx ∧ FromSlaves E s.h.trace ev ∧ Ended E s.h.trace ev o s' ∧
      SameX s.x s'.x rx ∧ s'.x.tx = s.x.tx := by
  induction n with
  | zero =>
    intro s hb hsi hsta hsto hst haa hsz
    have e1 : hwStep E s.h = recvByte E s.h := by
      rcases hst with h | h <;> simp [hwStep, hsi, hsta, hsto, h]
    have st1 := Steps.hw (E := E) hb hsi
    rw [e1] at st1
    rcases recvByte_cases E s.h with ⟨b, e2, hf⟩ | ⟨e2, hf⟩ | ⟨e2, hf⟩
    · rw [e2] at st1
      have haa' : s.h.aa = false := by rw [haa]; decide
      rw [haa'] at st1 hf
      refine ⟨[.inp b false, .stop], .done, [b], _, st1.trans (Steps.handle ?_ ?_), .last b, hf.cons ⟨trivial, trivial⟩,
        ⟨?_, Or.inr ⟨?_, ?_, ?_⟩⟩, ⟨?_, ?_, ?_, ?_⟩, ?_⟩
      · exact hb
      · rfl
      all_goals simp [handle, storeByte, finish, control, hb, hsz, hwStep, report]
    · rw [e2] at st1
      obtain ⟨s', q1, q2, q3, q4, q5, q6, q7⟩ := end_lost st1 hb rfl rfl (t := s.h.trace) (ev := [.lost]) rfl
      exact ⟨_, _, [], s', q1, .lost 0, hf, q2, ⟨by simpa using q3, by simpa using q4, q6, q7⟩, q5⟩
    · rw [e2] at st1
      obtain ⟨s', q1, q2, q3, q4, q5, q6, q7⟩ := end_error st1 hb rfl rfl (t := s.h.trace) (ev := [.error]) rfl
      exact ⟨_, _, [], s', q1, .error 0, hf, q2, ⟨by simpa using q3, by simpa using q4, q6, q7⟩, q5⟩
  | succ n ih =>
    intro s hb hsi hsta hsto hst haa hsz
    have e1 : hwStep E s.h = recvByte E s.h := by
      rcases hst with h | h <;> simp [hwStep, hsi, hsta, hsto, h]
    have st1 := Steps.hw (E := E) hb hsi
    rw [e1] at st1
    rcases recvByte_cases E s.h with ⟨b, e2, hf⟩ | ⟨e2, hf⟩ | ⟨e2, hf⟩
    · rw [e2] at st1
      have haa' : s.h.aa = true := by rw [haa]; simp
      rw [haa'] at st1 hf
      have st2 := st1.trans (Steps.handle (E := E) hb rfl)
      generalize hs2 : handle _ = s2 at st2
      have f1 : s2.x.status = .busy ∧ s2.h.si = false ∧ s2.h.sta = false ∧ s2.h.sto = false ∧ s2.h.stat = 0x50 ∧
          s2.h.trace = s.h.trace ++ [.inp b true] ∧ s2.x.tx = s.x.tx ∧ s2.x.addr = s.x.addr := by
        rw [← hs2]; simp [handle, storeByte, control, hb]
      have f2 : s2.x.rxSz = ((n + 1 : Nat) : Int) ∧ s2.x.rx = s.x.rx ++ [b] ∧ s2.x.oob = s.x.oob := by
        rw [← hs2]
        simp [handle, storeByte, hsz]
        omega
      have f3 : s2.h.aa = decide (n + 1 > 1) := by
        rw [← hs2]
        simp [handle, storeByte, control, hsz]
        omega
      obtain ⟨ev, o, rx, s', q1, q2, q3, q4, q5, q6⟩ := ih s2 f1.1 f1.2.1 f1.2.2.1 f1.2.2.2.1 (Or.inr f1.2.2.2.2.1) f3 f2.1
      rw [f1.2.2.2.2.2.1] at q3 q4
      refine ⟨_, _, _, s', st2.trans q1, .more b q2, hf.cons q3, q4.shift, ⟨?_, ?_, ?_, ?_⟩, ?_⟩
      · rw [q5.stored, f2.2.1]; simp
      · rw [q5.rxSz, f2.1, hsz, List.length_cons]; omega
      · rw [q5.oob, f2.2.2]
      · rw [q5.addr, f1.2.2.2.2.2.2.2]
      · rw [q6, f1.2.2.2.2.2.2.1]
    · rw [e2] at st1
      obtain ⟨s', q1, q2, q3, q4, q5, q6, q7⟩ := end_lost st1 hb rfl rfl (t := s.h.trace) (ev := [.lost]) rfl
      exact ⟨_, _, [], s', q1, .lost _, hf, q2, ⟨by simpa using q3, by simpa using q4, q6, q7⟩, q5⟩
    · rw [e2] at st1
      obtain ⟨s', q1, q2, q3, q4, q5, q6, q7⟩ := end_error st1 hb rfl rfl (t := s.h.trace) (ev := [.error]) rfl
      exact ⟨_, _, [], s', q1, .error _, hf, q2, ⟨by simpa using q3, by simpa using q4, q6, q7⟩, q5⟩

theorem addr_read (a : Byte) : a <<< 1 ||| 1#8 = addrByte a true ∧ (addrByte a true).getLsbD 0 = true := by
  revert a; unfold addrByte; decide +kernel

theorem addr_write (a : Byte) : a <<< 1 ||| 0#8 = addrByte a false ∧ (addrByte a false).getLsbD 0 = false := by
  revert a; unfold addrByte; decide +kernel

/-- From a START: the address for reading. -/
theorem readPart {E : Env} (n : Nat) (s : St) (hb : s.x.status = .busy) (hsi : s.h.si = true)
    (hst : s.h.stat = 0x08 ∨ s.h.stat = 0x10) (htx : s.x.tx = []) (hsz : s.x.rxSz = ((n + 1 : Nat) : Int)) :
    ∃ ev o rx s', Steps E s s' ∧ ReadPart s.x.addr (n + 1) ev o rx ∧ FromSlaves E s.h.trace ev ∧ Ended E s.h.trace ev o s' ∧
      SameX s.x s'.x rx ∧ s'.x.tx = [] := by
  have st1 := Steps.handle (E := E) hb hsi
  have e1 : handle s = { s with h := control { s.h with dat := addrByte s.x.addr true } false false false } := by
    unfold handle
    rw [if_pos hst, if_pos htx, (addr_read s.x.addr).1]
  rw [e1] at st1
  have st2 := st1.trans (Steps.hw (E := E) hb rfl)
  have e2 : ∀ (h : Hw) (d : Byte), h.stat = 0x08 ∨ h.stat = 0x10 → d.getLsbD 0 = true →
      hwStep E (control { h with dat := d } false false false) =
        sendByte E (control { h with dat := d } false false false) 0x40 0x48 := by
    intro h d h1 h2
    rcases h1 with h1 | h1 <;> simp [hwStep, control, h1, h2]
  rw [e2 s.h _ hst (addr_read s.x.addr).2] at st2
  rcases sendByte_cases E (control { s.h with dat := addrByte s.x.addr true } false false false) 0x40 0x48 with
    ⟨k, e3, hf⟩ | ⟨e3, hf⟩ | ⟨e3, hf⟩
  · rw [e3] at st2
    cases k with
    | true =>
      have st3 := st2.trans (Steps.handle (E := E) hb rfl)
      generalize hs3 : handle _ = s3 at st3
      have f1 : s3.x = s.x ∧ s3.h.si = false ∧ s3.h.sta = false ∧ s3.h.sto = false ∧ s3.h.stat = 0x40 ∧
          s3.h.trace = s.h.trace ++ [.out (addrByte s.x.addr true) true] := by
        rw [← hs3]; simp [handle, control]
      have f2 : s3.h.aa = decide (n + 1 > 1) := by
        rw [← hs3]; simp [handle, control, hsz]; omega
      obtain ⟨ev, o, rx, s', q1, q2, q3, q4, q5, q6⟩ := reading (E := E) n s3 (by rw [f1.1]; exact hb) f1.2.1 f1.2.2.1 f1.2.2.2.1
        (Or.inl f1.2.2.2.2.1) f2 (by rw [f1.1]; exact hsz)
      rw [f1.2.2.2.2.2] at q3 q4
      rw [f1.1] at q5 q6
      exact ⟨_, _, _, s', st3.trans q1, .ack q2, hf.cons q3, q4.shift, q5, q6.trans htx⟩
    | false =>
      obtain ⟨s', q1, q2, q3, q4, q5, q6, q7⟩ := end_nak st2 hb rfl (Or.inr (Or.inr rfl)) (t := s.h.trace)
        (ev := [.out (addrByte s.x.addr true) false]) rfl
      exact ⟨_, _, [], s', q1, .nak, hf.cons ⟨trivial, trivial⟩, q2, ⟨by simpa using q3, by simpa using q4, q6, q7⟩, q5.trans htx⟩
  · rw [e3] at st2
    obtain ⟨s', q1, q2, q3, q4, q5, q6, q7⟩ := end_lost st2 hb rfl rfl (t := s.h.trace) (ev := [.lost]) rfl
    exact ⟨_, _, [], s', q1, .lost, hf, q2, ⟨by simpa using q3, by simpa using q4, q6, q7⟩, q5.trans htx⟩
  · rw [e3] at st2
    obtain ⟨s', q1, q2, q3, q4, q5, q6, q7⟩ := end_error st2 hb rfl rfl (t := s.h.trace) (ev := [.error]) rfl
    exact ⟨_, _, [], s', q1, .error, hf, q2, ⟨by simpa using q3, by simpa using q4, q6, q7⟩, q5.trans htx⟩

/-- From an acknowledged byte: the rest of the bytes, then STOP or the reading. -/
theorem writing {E : Env} (n : Nat) (tx : List Byte) : ∀ (s : St), s.x.status = .busy → s.h.si = true →
    (s.h.stat = 0x18 ∨ s.h.stat = 0x28) → s.x.tx = tx → s.x.rxSz = (n : Int) →
    ∃ ev o k rx s', Steps E s s' ∧ Writing s.x.addr n tx ev o k rx ∧ FromSlaves E s.h.trace ev ∧ Ended E s.h.trace ev o s' ∧
      SameX s.x s'.x rx ∧ s'.x.tx = tx.drop k := by
  induction tx with
  | nil =>
    intro s hb hsi hst htx hsz
    have st1 := Steps.handle (E := E) hb hsi
    by_cases hn : n = 0
    · subst hn
      refine ⟨[.stop], .done, 0, [], _, st1, .stop rfl, ⟨trivial, trivial⟩, ⟨?_, Or.inr ⟨?_, ?_, ?_⟩⟩, ⟨?_, ?_, ?_, ?_⟩, ?_⟩ <;>
        (rcases hst with h | h <;> simp [handle, h, htx, hsz, control, finish, hb, hwStep, report])
    · have e1 : handle s = { s with h := control s.h false false true } := by
        unfold handle
        rw [if_neg (by omega), if_pos hst, htx]
        dsimp only
        rw [if_pos (by rw [hsz]; omega)]
      rw [e1] at st1
      have st2 := st1.trans (Steps.hw (E := E) hb rfl)
      have e2 : hwStep E (control s.h false false true) =
          { control s.h false false true with stat := 0x10, si := true, trace := s.h.trace ++ [.restart] } := by
        rcases hst with h | h <;> simp [hwStep, control, Hw.released, h]
      rw [show (({ s with h := control s.h false false true } : St).h) = control s.h false false true from rfl, e2] at st2
      obtain ⟨m, rfl⟩ : ∃ m, n = m + 1 := ⟨n - 1, by omega⟩
      obtain ⟨ev, o, rx, s', q1, q2, q3, q4, q5, q6⟩ := readPart (E := E) m
        ⟨{ control s.h false false true with stat := 0x10, si := true, trace := s.h.trace ++ [.restart] }, s.x⟩ hb rfl (Or.inr rfl) htx hsz
      exact ⟨_, _, 0, _, s', st2.trans q1, .read hn q2, ⟨trivial, q3⟩, q4.shift, q5, q6⟩
  | cons b bs ih =>
    intro s hb hsi hst htx hsz
    have st1 := Steps.handle (E := E) hb hsi
    have e1 : handle s = { h := control { s.h with dat := b } false false false, x := { s.x with tx := bs } } := by
      unfold handle
      rw [if_neg (by omega), if_pos hst, htx]
    rw [e1] at st1
    have st2 := st1.trans (Steps.hw (E := E) hb rfl)
    have e2 : hwStep E (control { s.h with dat := b } false false false) =
        sendByte E (control { s.h with dat := b } false false false) 0x28 0x30 := by
      rcases hst with h | h <;> simp [hwStep, control, h]
    dsimp only at st2
    rw [e2] at st2
    rcases sendByte_cases E (control { s.h with dat := b } false false false) 0x28 0x30 with ⟨k, e3, hf⟩ | ⟨e3, hf⟩ | ⟨e3, hf⟩
    · rw [e3] at st2
      cases k with
      | true =>
        obtain ⟨ev, o, k, rx, s', q1, q2, q3, q4, q5, q6⟩ := ih
          ⟨{ control { s.h with dat := b } false false false with stat := 0x28, si := true, trace := s.h.trace ++ [.out b true] },
            { s.x with tx := bs }⟩ hb rfl (Or.inr rfl) rfl hsz
        exact ⟨_, _, _, _, s', st2.trans q1, .ack b q2, hf.cons q3, q4.shift, ⟨q5.stored, q5.rxSz, q5.oob, q5.addr⟩, q6⟩
      | false =>
        obtain ⟨s', q1, q2, q3, q4, q5, q6, q7⟩ := end_nak st2 hb rfl (Or.inr (Or.inl rfl)) (t := s.h.trace) (ev := [.out b false]) rfl
        exact ⟨_, _, 1, [], s', q1, .nak b bs, hf.cons ⟨trivial, trivial⟩, q2,
          ⟨by simpa using q3, by simpa using q4, q6, q7⟩, by simpa using q5⟩
    · rw [e3] at st2
      obtain ⟨s', q1, q2, q3, q4, q5, q6, q7⟩ := end_lost st2 hb rfl rfl (t := s.h.trace)
        (ev := [.lost]) rfl
      exact ⟨_, _, 1, [], s', q1, .lost b bs, hf, q2, ⟨by simpa using q3, by simpa using q4, q6, q7⟩, by simpa using q5⟩
    · rw [e3] at st2
      obtain ⟨s', q1, q2, q3, q4, q5, q6, q7⟩ := end_error st2 hb rfl rfl (t := s.h.trace)
        (ev := [.error]) rfl
      exact ⟨_, _, 1, [], s', q1, .error b bs, hf, q2, ⟨by simpa using q3, by simpa using q4, q6, q7⟩, by simpa using q5⟩

end Verif.I2c
