import Verif.Bus.ArbLemmas

/-!
# C84 — arbitration between two senders
-/

namespace Verif.Bus

open Verif.Knx

/-- The device is about to send the first character of the queued telegram `f`. -/
def AboutToSend (s : Sys) (f : Buf) : Prop :=
  s.paused = false ∧ s.bus.st = .sendStart ∧ s.bus.sendAck = 0#8 ∧ s.bus.nextByteIndex = 0 ∧
  s.bus.sendCur = some f

theorem sys_eta {s : Sys} (h : s.paused = false) : s = ⟨s.bus, false⟩ := by
  cases s; cases h; rfl

theorem AboutToSend.len {es : List Ev} {f : Buf} (h : AboutToSend (run boot es).1 f) :
    (run boot es).1.bus.sendTelegramLen = (frameOf f).length ∧
    (run boot es).1.bus.collisions.toNat ≤ 3 ∧ (run boot es).1.bus.waitForAck = false := by
  have hinv := (run_inv boot_inv es).inv
  obtain ⟨_, h2, h3, _, h5⟩ := h
  have hsb : Sending (run boot es).1.bus.st := by rw [h2]; trivial
  obtain ⟨t, t1, t2, t3⟩ := hinv.cur hsb h3
  rw [h5] at t1
  obtain rfl := Option.some.inj t1
  exact ⟨by rw [t2, frameOf, bytes_length], t3, waitForAck_false hinv hsb⟩

theorem frame_range (f : Buf) (n : Nat) (h : n ≤ (frameOf f).length) :
    (frameOf f).take n = (List.range n).map f := by
  rw [frameOf, bytes_length] at h
  rw [frameOf, bytes, ← List.map_take, List.take_range, Nat.min_eq_left h]

/-- C84 (winner). A device in any reachable state that begins to send its telegram, and hears other
senders only where it sends a pulse itself (at most 7 µs before and 34 µs after its own zero bits, at
most 30 µs before its start bits), sends every character of its telegram to the end, notices no
collision and then waits for the acknowledge. -/
theorem C84_winner (es : List Ev) (f : Buf) (hs : AboutToSend (run boot es).1 f)
    (xs : List TxIrqs) (hx : SentAll (run boot es).1.bus.mPwm (frameOf f) xs)
    (j : Irq) (hj : j.spike = false) :
    (run (run boot es).1 (xs.flatMap (·.events) ++ [.irq j])).2 =
      txChars (frameOf f) ++ [.txEnd] ∧
    (run (run boot es).1 (xs.flatMap (·.events) ++ [.irq j])).1.bus.collisions =
      (run boot es).1.bus.collisions ∧
    (run (run boot es).1 (xs.flatMap (·.events) ++ [.irq j])).1.bus.waitForAck = true ∧
    (run (run boot es).1 (xs.flatMap (·.events) ++ [.irq j])).1.bus.sendCur = some f := by
  obtain ⟨hl, _, _⟩ := hs.len
  have hlead := boot_lead es
  generalize (run boot es).1 = s at *
  obtain ⟨h1, h2, h3, h4, h5⟩ := hs
  obtain ⟨b, p⟩ := s
  cases h1
  simp only at h2 h3 h4 h5 hl hx hlead
  have hne : frameOf f ≠ [] := by
    intro h
    have := congrArg List.length h
    rw [frameOf, bytes_length] at this
    simp at this
  obtain ⟨b', e1, _, e3, _, e5, _, e7⟩ := arb_chars (frameOf f) xs h2 h3 h5 (hlead h2).1
    (by
      rw [h4]
      have := frame_range f (frameOf f).length (Nat.le_refl _)
      rw [List.take_length] at this
      simpa using this)
    (by rw [h4, hl]; omega) hx
  have hst := e7 hne (by rw [h4, hl]; omega)
  have hcur : b'.sendCur = some f ∧ b'.collisions = b.collisions := by
    simp only [kept, txF, Prod.mk.injEq] at e3
    obtain ⟨_, g1, _, _, _, _, g6, _⟩ := e3
    exact ⟨g1.trans h5, g6⟩
  have hj' : step ⟨b', false⟩ (.irq j) = (⟨(sendEndTx { b' with tSet := none }).1, false⟩,
      (sendEndTx { b' with tSet := none }).2) := by
    rw [step_irq _ _ hj]
    simp only [dispatch, hst]
  rw [run_append, e1]
  simp only [run, hj', List.append_nil]
  have ht : (sendEndTx { b' with tSet := none }).2 = [.txEnd] ∧
      (sendEndTx { b' with tSet := none }).1.collisions = b'.collisions ∧
      (sendEndTx { b' with tSet := none }).1.waitForAck = true ∧
      (sendEndTx { b' with tSet := none }).1.sendCur = b'.sendCur := by
    unfold sendEndTx
    simp only [e5, ne_eq, not_true_eq_false, if_false]
    cases b'.repeatTel <;> cases b'.busyWait <;> simp
  rw [ht.1, ht.2.1, ht.2.2.1, ht.2.2.2]
  exact ⟨rfl, hcur.2, rfl, hcur.1⟩

/-- C84 (winner, on the line). For one character of the winner: with the start bit at `start` — its
own, or the one of another device that was up to 30 µs earlier — it pulls the line low exactly at 104 µs
times the position of each zero bit after `start`, whatever other edges it captures meanwhile. -/
theorem C84_undisturbed_bits (es : List Ev) (f : Buf) (t start : Nat)
    (hp : (run boot es).1.paused = false) (hs : (run boot es).1.bus.st = .sendStart)
    (ha : (run boot es).1.bus.sendAck = 0#8) (hf : (run boot es).1.bus.sendCur = some f)
    (x : TxIrqs) (c : Byte) (hc : c = f (run boot es).1.bus.nextByteIndex)
    (hx : x.Of (run boot es).1.bus.mPwm c)
    (hstart : start = t + min x.start.capVal (run boot es).1.bus.mPwm) :
    ∃ own, drive t (run boot es).1 x.events =
      own ++ (zeroSlots c (parityBit c)).map (fun n => start + 104 * n) ∧
      (own = [start] ∨ own = [] ∨
        x.start.capVal < (run boot es).1.bus.mPwm ∧ own = [t + (x.start.now + 1)]) := by
  have hlead := boot_lead es
  generalize (run boot es).1 = s at *
  obtain ⟨b, p⟩ := s
  cases hp
  simp only at *
  obtain ⟨l1, l2⟩ := hlead hs
  subst hc
  rw [drive_char hs ha hf l1 l2 hx t]
  refine ⟨_, by rw [hstart], ?_⟩
  by_cases h : x.start.capVal < b.mPwm
  · simp only [if_pos h]
    split
    · exact Or.inr (Or.inr ⟨h, rfl⟩)
    · exact Or.inr (Or.inl rfl)
  · simp only [if_neg h]
    left
    rw [hstart, Nat.min_eq_right (by omega)]

theorem zerosBefore_tab (c : Byte) (s : Nat) (h1 : 1 ≤ s) (h9 : s ≤ 9)
    (hc : (charBits c (parityBit c))[s - 1]? = some true) :
    ∃ rest, zeroSlots c (parityBit c) = [] ++ (zerosBefore c s ++ rest) := by
  have := (lost_tab c ⟨s, by omega⟩ h1 hc).2.2.1
  simp only at this
  refine ⟨(zeroSlots c (parityBit c)).drop (zerosBefore c s).length, ?_⟩
  rw [List.nil_append]
  conv => lhs; rw [← List.take_append_drop (zerosBefore c s).length (zeroSlots c (parityBit c)), this]

theorem overrules_le {w c : Byte} {s : Nat} (h : Overrules w c s) : s ≤ 9 := by
  have := h.2.2.1
  by_cases hs : s ≤ 9
  · exact hs
  · rw [List.getElem?_eq_none (by simp [charBits]; omega)] at this
    cases this

/-- Up to the overruling edge. -/
theorem arb_before {b : Bus} {f : Buf} {y : LostIrqs} {w : Byte} {s : Nat}
    (hs : b.st = .sendStart) (ha : b.sendAck = 0#8) (hf : b.sendCur = some f) (hl : 30 ≤ b.mPwm)
    (ho : Overrules w (f b.nextByteIndex) s)
    (hy : y.Of b.mPwm 32 (f b.nextByteIndex) w s) :
    ∃ b', run ⟨b, false⟩ (.irq y.start :: .irq y.startEnd ::
        (y.pulses.flatMap (·.events) ++ [.irq y.edge])) = (⟨b', false⟩,
        .txChar (f b.nextByteIndex) (parityBit (f b.nextByteIndex)) :: .collision :: .rxBegin ::
        (bytes f b.nextByteIndex).map fun x => Out.rxChar x true) ∧
      b'.st = .recvBits ∧ b'.mTime + 1 = y.edge.capVal + 104 * (11 - s) ∧ b'.mPwm = 0xffff ∧
      scanOf b' = sh ((y.edge.capVal : Int) - 104 * s)
        (push (scanBits ((charBits w (parityBit w)).take (s - 1))) false) ∧
      kept b' = lostOf (kept b) := by
  obtain ⟨y1, y2, y3, y4, y5, y6, y7, y8, y9⟩ := hy
  have h9 := overrules_le ho
  obtain ⟨o1, o2, o3, o4⟩ := ho
  obtain ⟨b1, e1, s1, n1, k1, l1, a1⟩ := arb_start hs ha hf hl y1 y2 y3
  obtain ⟨rest, hz⟩ := zerosBefore_tab _ s o1 h9 o4
  obtain ⟨b2, e2, s2, k2⟩ := arb_pulses y.pulses _ [] rest hz rfl s1 y4
  have hf1 : b1.sendCur = some f := by
    have := congrArg (fun k => k.2.1) k1
    simpa only [kept, txF, hf] using this
  simp only [same, Prod.mk.injEq] at k2
  obtain ⟨k21, k22, k23, k24, k25⟩ := k2
  have hf2 : b2.sendCur = some f := by
    have := congrArg (fun k => k.1) k22
    simpa only [txF, hf1] using this
  obtain ⟨b3, e3, s3, m3, p3, q3, k3⟩ := arb_collide o1 h9 s2 o4 (by rw [k24, a1]) hf2 y5 y6
    (by omega)
  refine ⟨b3, ?_, s3, m3, p3, by rw [q3, o2], ?_⟩
  · rw [show (.irq y.start :: .irq y.startEnd :: (y.pulses.flatMap (·.events) ++ [.irq y.edge]) :
      List Ev) = [.irq y.start, .irq y.startEnd] ++
      (y.pulses.flatMap (·.events) ++ [.irq y.edge]) from rfl, run_append, e1]
    simp only [run_append, e2, run, e3, List.append_nil, List.nil_append, List.singleton_append,
      k25, n1, Nat.add_sub_cancel]
  · rw [k3]
    congr 1
    simp only [kept] at k1 ⊢
    rw [k21, k22, k1]

/-- The character in which the device is overruled. -/
theorem arb_lost {b : Bus} {f : Buf} {y : LostIrqs} {w : Byte} {s : Nat}
    (hs : b.st = .sendStart) (ha : b.sendAck = 0#8) (hf : b.sendCur = some f) (hl : 30 ≤ b.mPwm)
    (ho : Overrules w (f b.nextByteIndex) s)
    (hy : y.Of b.mPwm 32 (f b.nextByteIndex) w s) :
    ∃ b', run ⟨b, false⟩ y.events = (⟨b', false⟩,
        .txChar (f b.nextByteIndex) (parityBit (f b.nextByteIndex)) :: .collision :: .rxBegin ::
        (((bytes f b.nextByteIndex).map fun x => Out.rxChar x true) ++ [.rxChar w true])) ∧
      b'.st = .waitStart ∧ kept b' = lostOf (kept b) := by
  obtain ⟨b1, e1, s1, m1, p1, q1, k1⟩ := arb_before hs ha hf hl ho hy
  obtain ⟨y1, y2, y3, y4, y5, y6, y7, y8, y9⟩ := hy
  have h9 := overrules_le ho
  obtain ⟨o1, o2, o3, o4⟩ := ho
  have hsl : ∀ n ∈ zerosAfter w s, s < n := by
    intro n hn
    simpa using (List.mem_filter.1 hn).2
  obtain ⟨b2, e2, s2, m2, p2, q2, k2⟩ := recv_edges' y.rest s1
    (fun e he => ((rebase_captured _ _ _ _ hsl y8).2 e he).2)
  obtain ⟨b3, e3, s3, p3, k3⟩ := recv_fin' s2 y9
  rw [q2, q1, m2, show (b1.mTime : Int) + 1 = (y.edge.capVal : Int) + 104 * (11 - s) by omega,
    scan_rest _ s w _ o1 h9 o3 y8] at e3
  simp only [sh] at e3
  rw [(scanBits_char w (parityBit w)).1, (scanBits_char w (parityBit w)).2] at e3
  refine ⟨b3, ?_, s3, by rw [k3, k2, k1]⟩
  rw [show y.events = (.irq y.start :: .irq y.startEnd :: (y.pulses.flatMap (·.events) ++
    [.irq y.edge])) ++ (y.rest.map .irq ++ [.irq y.fin]) by simp [LostIrqs.events], run_append, e1]
  simp only [run_append, e2, run, e3, List.append_nil, List.nil_append, beq_self_eq_true]
  simp

/-- Further characters. -/
theorem recv_all (bs : List Byte) (cs : List CharIrqs) (s : Sys) (hp : s.paused = false)
    (hs : s.bus.st = .waitStart) (h : AllOf bs cs) :
    (run s (cs.flatMap (·.events))).2 = rxChars (bs.map fun x => (x, true)) ∧
    (run s (cs.flatMap (·.events))).1.bus.st = .waitStart ∧
    (run s (cs.flatMap (·.events))).1.paused = false ∧
    kept (run s (cs.flatMap (·.events))).1.bus = kept s.bus := by
  induction bs generalizing cs s with
  | nil =>
    simp only [AllOf] at h
    subst h
    simp [run, rxChars, hp, hs]
  | cons x l ih =>
    cases cs with
    | nil => exact h.elim
    | cons c cs =>
      obtain ⟨r1, r2, r3, r4⟩ := recv_char hp (Or.inl hs) h.1
      obtain ⟨i1, i2, i3, i4⟩ := ih cs _ r3 r2 h.2
      simp only [List.flatMap_cons, run_append, i1, i2, i3, i4, r1, r4, hs]
      simp [rxChars]

/-- C84 (loser; partial: the full property allows the overruling edge to be 33 µs late, which is what
the code tolerates for any received bit, see `C84_33_us_late_misread`). A device in any reachable state
that begins to send its telegram `f` while another device sends `w`, a frame that wins: they agree up to
bit position `s` of character `n`, where `w` has the zero.  The device hears the other one within the
tolerances.  Then it sends nothing after the common part, and receives the other frame completely —
also the part that it sent itself — with correct parity; if that frame is correct, new and addressed to
it, it is handed to the upper layer.  Its own telegram stays queued, with its repetitions uncounted and
one more collision. -/
theorem C84_loser_partial (es : List Ev) (f : Buf) (hs : AboutToSend (run boot es).1 f)
    (w : List Byte) (n s : Nat) (hwin : Wins w (frameOf f) n s)
    (xs : List TxIrqs) (hx : SentAll (run boot es).1.bus.mPwm (w.take n) xs)
    (y : LostIrqs)
    (hy : y.Of (if n = 0 then (run boot es).1.bus.mPwm else 278) 32 (at' (frameOf f) n) (at' w n) s)
    (cs : List CharIrqs) (hc : AllOf (w.drop (n + 1)) cs)
    (j : Irq) (hj : j.cap = false) (hjs : j.spike = false)
    (h8 : 8 ≤ w.length) (h23 : w.length ≤ 23) (hck : ChecksumOk w) (hstd : StandardData w)
    (hnew : at' w 0 &&& 0x20#8 ≠ 0#8)
    (hadr : AddressedTo j.own j.known w ∨ j.tlEnabled = false)
    (hfree : (run boot es).1.bus.telegramLen = 0) (evs : List Ev)
    (hevs : evs = xs.flatMap (·.events) ++ (y.events ++ (cs.flatMap (·.events) ++ [.irq j]))) :
    (run (run boot es).1 evs).2 = txChars ((frameOf f).take (n + 1)) ++
      (.collision :: .rxBegin :: rxChars (w.map fun x => (x, true))) ++ [.deliver w] ∧
    (run (run boot es).1 evs).1.bus.sendCur = some f ∧
    (run (run boot es).1 evs).1.bus.collisions.toNat =
      (run boot es).1.bus.collisions.toNat + 1 ∧
    (run (run boot es).1 evs).1.bus.repeatTel = (run boot es).1.bus.repeatTel ∧
    (run (run boot es).1 evs).1.bus.sendRetries = (run boot es).1.bus.sendRetries ∧
    (run (run boot es).1 evs).1.bus.sendBusyRetries = (run boot es).1.bus.sendBusyRetries := by
  obtain ⟨hl, hcol, hwfa⟩ := hs.len
  have hlead := boot_lead es
  obtain ⟨h1, h2, h3, h4, h5⟩ := hs
  obtain ⟨w1, w2, w3, w4⟩ := hwin
  have hsys := sys_eta h1
  -- the characters in common
  obtain ⟨b1, e1, n1, k1, l1, a1, s1, _⟩ := arb_chars (w.take n) xs h2 h3 h5 (hlead h2).1
    (by
      rw [h4, w1, List.length_take, Nat.min_eq_left (by omega), frame_range f n (by omega)]
      simp)
    (by rw [h4, hl, List.length_take]; omega) hx
  have hlen : (w.take n).length = n := by rw [List.length_take]; omega
  rw [h4, hlen, Nat.zero_add] at n1
  obtain ⟨st1, pw1⟩ := s1 (by rw [h4, hl, hlen]; omega)
  have hf1 : b1.sendCur = some f := by
    have := congrArg (fun k => k.2.1) k1
    simpa only [kept, txF, h5] using this
  have hpw : b1.mPwm = if n = 0 then (run boot es).1.bus.mPwm else 278 := by
    rw [pw1]
    by_cases hn : n = 0
    · rw [if_pos hn, if_pos (by rw [hn, List.take_zero])]
    · rw [if_neg hn, if_neg]
      intro h
      rw [h] at hlen
      simp at hlen
      omega
  have hat : at' (frameOf f) n = f n := by
    have hlt : n < telegramSize f + 1 := by rw [frameOf, bytes_length] at w3; exact w3
    simp [at', frameOf, bytes, List.getD, hlt]
  rw [hat] at w4 hy
  -- the character in which it is overruled
  obtain ⟨b2, e2, s2, k2⟩ := arb_lost (b := b1) (f := f) (y := y) (w := at' w n) (s := s) st1 a1 hf1
    (by rw [hpw]; split
        · exact (hlead h2).1
        · decide)
    (by rw [n1]; exact w4) (by rw [n1, hpw]; exact hy)
  rw [n1] at e2
  -- the rest
  obtain ⟨r1, r2, r3, r4⟩ := recv_all (w.drop (n + 1)) cs ⟨b2, false⟩ rfl s2 hc
  have hown : bytes f n = w.take n := by
    rw [w1, frame_range f n (by omega), bytes]
  have hw3 : w = w.take n ++ (at' w n :: w.drop (n + 1)) := by
    have hd : w.drop n = at' w n :: w.drop (n + 1) := by
      rw [List.drop_eq_getElem_cons w2]
      simp [at', List.getD, List.getElem?_eq_getElem w2]
    rw [← hd, List.take_append_drop]
  -- everything before the end of the frame
  have hrun : run (run boot es).1 (xs.flatMap (·.events) ++ (y.events ++ cs.flatMap (·.events))) =
      ((run ⟨b2, false⟩ (cs.flatMap (·.events))).1, txChars ((frameOf f).take (n + 1)) ++
        (.collision :: .rxBegin :: rxChars (w.map fun x => (x, true)))) := by
    rw [hsys, run_append, e1]
    simp only [run_append, e2, r1]
    refine Prod.ext rfl ?_
    simp only
    have hft : (frameOf f).take (n + 1) = w.take n ++ [f n] := by
      rw [frame_range f (n + 1) (by omega), List.range_succ, List.map_append, w1,
        frame_range f n (by omega)]
      rfl
    have hrx : rxChars (w.map fun x => (x, true)) = (w.take n).map (fun x => Out.rxChar x true) ++
        (.rxChar (at' w n) true :: rxChars ((w.drop (n + 1)).map fun x => (x, true))) := by
      conv => lhs; rw [hw3]
      simp only [rxChars, List.map_append, List.map_cons, List.map_map]
      rfl
    rw [hft, hown, hrx]
    simp [txChars]
  have htot : run boot (es ++ (xs.flatMap (·.events) ++ (y.events ++ cs.flatMap (·.events)))) =
      ((run ⟨b2, false⟩ (cs.flatMap (·.events))).1, (run boot es).2 ++
        (txChars ((frameOf f).take (n + 1)) ++
        (.collision :: .rxBegin :: rxChars (w.map fun x => (x, true))))) := by
    rw [run_append, hrun]
  have hkb : kept (run ⟨b2, false⟩ (cs.flatMap (·.events))).1.bus =
      lostOf (kept (run boot es).1.bus) := by rw [r4, k2, k1]
  have hwm : (w.map fun x => (x, true)).map Prod.fst = w := by
    rw [List.map_map, show (Prod.fst ∘ fun x : Byte => (x, true)) = id from rfl, List.map_id]
  have hacc := C13_accepts
    (es ++ (xs.flatMap (·.events) ++ (y.events ++ cs.flatMap (·.events)))) j
    ((run boot es).2 ++ txChars ((frameOf f).take (n + 1)) ++ [.collision])
    (w.map fun x => (x, true)) (by rw [htot]; exact r2) (by rw [htot]; simp)
    (by intro c hc; obtain ⟨x, _, rfl⟩ := List.mem_map.1 hc; rfl)
    (by rw [List.length_map]; exact h8) (by rw [List.length_map]; exact h23)
    (by rw [hwm]; exact hck) (by rw [hwm]; exact hstd) (by rw [hwm]; exact hadr)
    (by
      rw [htot]
      have := congrArg (fun k => k.1.2) hkb
      simp only [kept, tel, lostOf] at this
      exact this.trans hfree)
    (Or.inl (by rw [hwm]; exact hnew)) hj
  rw [htot, hwm] at hacc
  have hev2 : run (run boot es).1 evs =
      ((step (run ⟨b2, false⟩ (cs.flatMap (·.events))).1 (.irq j)).1,
        txChars ((frameOf f).take (n + 1)) ++
        (.collision :: .rxBegin :: rxChars (w.map fun x => (x, true))) ++ [.deliver w]) := by
    rw [hevs, ← List.append_assoc y.events, ← List.append_assoc, run_append, hrun]
    simp only [run, hacc.1, List.append_nil]
  -- the queued telegram
  have htx : txF (step (run ⟨b2, false⟩ (cs.flatMap (·.events))).1 (.irq j)).1.bus =
      txF (run ⟨b2, false⟩ (cs.flatMap (·.events))).1.bus := by
    have hw0 : (run ⟨b2, false⟩ (cs.flatMap (·.events))).1.bus.waitForAck = false := by
      have := congrArg (fun k => k.2.2.2.1) hkb
      simp only [kept, txF, lostOf] at this
      exact this.trans hwfa
    rw [sys_eta r3, step_irq _ _ hjs]
    generalize (run ⟨b2, false⟩ (cs.flatMap (·.events))).1.bus = b3 at *
    simp only [dispatch, r2, waitStart, hj, Bool.not_false, if_true]
    split
    · rcases handleTelegram_tx j { b3 with
        tSet := none, st := .waitStart, mTime := 0xfffe, tInt := true, tReset := true,
        rxError := b3.rxError ||| 16#16 } (b3.valid && b3.checksum == 0#8)
        (by simp [hw0]) with h | h | h
      · exact h.2.1
      · simp [hw0] at h
      · simp [hw0] at h
    · rcases handleTelegram_tx j { b3 with
        tSet := none, st := .waitStart, mTime := 0xfffe, tInt := true, tReset := true }
        (b3.valid && b3.checksum == 0#8) (by simp [hw0]) with h | h | h
      · exact h.2.1
      · simp [hw0] at h
      · simp [hw0] at h
  rw [hev2]
  refine ⟨rfl, ?_⟩
  simp only
  have hq := congrArg Prod.snd hkb
  simp only [kept, lostOf] at hq
  rw [← htx] at hq
  simp only [txF, Prod.mk.injEq] at hq
  obtain ⟨q1, q2, q3, q4, q5, q6, _⟩ := hq
  refine ⟨q1.trans h5, ?_, q2, q4, q5⟩
  rw [q6, BitVec.toNat_add]
  simp
  omega

/-- C84 (loser, on the line). From the overruling edge to the end of the other frame the device puts
nothing on the line. -/
theorem C84_loser_silent (es : List Ev) (f : Buf) (hs : AboutToSend (run boot es).1 f)
    (w : List Byte) (n s : Nat) (hwin : Wins w (frameOf f) n s)
    (xs : List TxIrqs) (hx : SentAll (run boot es).1.bus.mPwm (w.take n) xs)
    (y : LostIrqs)
    (hy : y.Of (if n = 0 then (run boot es).1.bus.mPwm else 278) 32 (at' (frameOf f) n) (at' w n) s)
    (cs : List CharIrqs) (hc : AllOf (w.drop (n + 1)) cs) (t : Nat) :
    drive t (run (run boot es).1 (xs.flatMap (·.events) ++ (.irq y.start :: .irq y.startEnd ::
        (y.pulses.flatMap (·.events) ++ [.irq y.edge])))).1
      (y.rest.map .irq ++ .irq y.fin :: cs.flatMap (·.events)) = [] := by
  obtain ⟨hl, hcol, hwfa⟩ := hs.len
  have hlead := boot_lead es
  obtain ⟨h1, h2, h3, h4, h5⟩ := hs
  obtain ⟨w1, w2, w3, w4⟩ := hwin
  have hsys := sys_eta h1
  obtain ⟨b1, e1, n1, k1, l1, a1, s1, _⟩ := arb_chars (w.take n) xs h2 h3 h5 (hlead h2).1
    (by
      rw [h4, w1, List.length_take, Nat.min_eq_left (by omega), frame_range f n (by omega)]
      simp)
    (by rw [h4, hl, List.length_take]; omega) hx
  have hlen : (w.take n).length = n := by rw [List.length_take]; omega
  rw [h4, hlen, Nat.zero_add] at n1
  obtain ⟨st1, pw1⟩ := s1 (by rw [h4, hl, hlen]; omega)
  have hf1 : b1.sendCur = some f := by
    have := congrArg (fun k => k.2.1) k1
    simpa only [kept, txF, h5] using this
  have hpw : b1.mPwm = if n = 0 then (run boot es).1.bus.mPwm else 278 := by
    rw [pw1]
    by_cases hn : n = 0
    · rw [if_pos hn, if_pos (by rw [hn, List.take_zero])]
    · rw [if_neg hn, if_neg]
      intro h
      rw [h] at hlen
      simp at hlen
      omega
  have hat : at' (frameOf f) n = f n := by
    have hlt : n < telegramSize f + 1 := by rw [frameOf, bytes_length] at w3; exact w3
    simp [at', frameOf, bytes, List.getD, hlt]
  rw [hat] at w4 hy
  have h9 := overrules_le w4
  have hy' := hy
  obtain ⟨b2, e2, s2, m2, p2, _, _⟩ := arb_before (b := b1) (f := f) (y := y) (w := at' w n) (s := s)
    st1 a1 hf1
    (by rw [hpw]; split
        · exact (hlead h2).1
        · decide)
    (by rw [n1]; exact w4) (by rw [n1, hpw]; exact hy)
  obtain ⟨_, _, _, _, y5, y6, y7, y8, y9⟩ := hy
  rw [hsys, run_append, e1]
  simp only [e2]
  have hq2 : Quiet b2 := ⟨p2, by omega, Or.inl s2⟩
  have hsl : ∀ k ∈ zerosAfter (at' w n) s, s < k := by
    intro k hk
    simpa using (List.mem_filter.1 hk).2
  obtain ⟨b3, e3, s3, m3, p3, _, _⟩ := recv_edges' y.rest s2
    (fun e he => ((rebase_captured _ _ _ _ hsl y8).2 e he).2)
  rw [drive_edges y.rest (fun e he => ((rebase_captured _ _ _ _ hsl y8).2 e he).2.2.1), e3]
  obtain ⟨b4, e4, s4, p4, k4⟩ := recv_fin' s3 y9
  have hq3 : Quiet b3 := ⟨p3.trans p2, by rw [m3]; omega, Or.inl s3⟩
  obtain ⟨b4', e4', q4'⟩ := quiet_irq hq3 y9.2 (by intro h; rw [s3] at h; cases h)
  have hb4 : b4' = b4 := by
    have h := e4'.symm.trans (congrArg Prod.fst e4)
    injection h
  rw [hb4] at q4'
  simp only [drive, y9.1, if_true, e4]
  rw [if_neg (by rw [p3, p2, m3]; omega), List.nil_append]
  -- the further characters
  clear e4 e4' hb4 k4 p4
  generalize t + b3.mTime + 1 = u
  generalize w.drop (n + 1) = bs at hc
  clear hx hy' y5 y6 y7 y8 y9 e3 e2 e1 hq2 hq3 hsl
  induction bs generalizing cs b4 u with
  | nil => simp only [AllOf] at hc; subst hc; rfl
  | cons x bs ih =>
    cases cs with
    | nil => exact hc.elim
    | cons c cs =>
      obtain ⟨⟨c1, c2, c3, c4, c5⟩, hc⟩ := hc
      obtain ⟨b5, e5, q5, m5, _, _⟩ := recv_start (s := ⟨b4, false⟩) (i := c.start) rfl (Or.inl s4) c1 c2
      have hq5 : Quiet b5 := by
        obtain ⟨b5', e5', q5'⟩ := quiet_irq q4' c2 (fun _ => c1)
        have h := e5'.symm.trans (congrArg Prod.fst e5)
        injection h with h
        rw [← h]; exact q5'
      obtain ⟨b6, e6, s6, m6, p6, _, _⟩ := recv_edges' c.edges q5 (captured_irq c3)
      have hq6 : Quiet b6 := ⟨p6.trans hq5.1, by rw [m6]; exact hq5.2.1, Or.inl s6⟩
      obtain ⟨b7, e7, s7, p7, _⟩ := recv_fin' s6 ⟨c4, c5⟩
      have hq7 : Quiet b7 := by
        obtain ⟨b7', e7', q7'⟩ := quiet_irq hq6 c5 (by intro h; rw [s6] at h; cases h)
        have h := e7'.symm.trans (congrArg Prod.fst e7)
        injection h with h
        rw [← h]; exact q7'
      have hfin : ∀ v, drive v ⟨b5, false⟩ (c.edges.map .irq ++ [.irq c.fin] ++
          cs.flatMap (·.events)) = [] := by
        intro v
        rw [List.append_assoc, drive_edges c.edges (fun e he => (captured_irq c3 e he).2.1), e6]
        simp only [List.singleton_append, drive, c4, if_true, e7]
        rw [if_neg (by rw [hq6.1]; have := hq6.2.1; omega), List.nil_append]
        exact ih cs b7 s7 hq7 _ hc
      rw [List.flatMap_cons, CharIrqs.events, List.cons_append]
      simp only [drive, e5]
      cases c.start.tmo
      · simp only [Bool.false_eq_true, if_false]
        exact hfin _
      · simp only [if_true]
        rw [if_neg (by rw [q4'.1]; have := q4'.2.1; omega), List.nil_append]
        exact hfin _

/-! ## Exactly one of two senders wins -/

/-- The first difference of two lists. -/
theorem first_diff {α : Type} (l m : List α)
    (h : ∃ k, k < l.length ∧ k < m.length ∧ l[k]? ≠ m[k]?) :
    ∃ n, n < l.length ∧ n < m.length ∧ l.take n = m.take n ∧ l[n]? ≠ m[n]? := by
  obtain ⟨k, h1, h2, h3⟩ := h
  induction k using Nat.strongRecOn with
  | _ k ih =>
  by_cases he : ∃ j, j < k ∧ l[j]? ≠ m[j]?
  · obtain ⟨j, j1, j2⟩ := he
    exact ih j j1 (by omega) (by omega) j2
  · refine ⟨k, h1, h2, ?_, h3⟩
    apply List.ext_getElem?
    intro j
    by_cases hj : j < k
    · rw [List.getElem?_take_of_lt hj, List.getElem?_take_of_lt hj]
      exact Classical.not_not.1 fun hh => he ⟨j, hj, hh⟩
    · rw [List.getElem?_eq_none (by simp; omega), List.getElem?_eq_none (by simp; omega)]

theorem charBits_inj {b c : Byte} (h : charBits b (parityBit b) = charBits c (parityBit c)) :
    b = c := by
  have h1 := (scanBits_char b (parityBit b)).1
  have h2 := (scanBits_char c (parityBit c)).1
  rw [← h1, h, h2]

theorem overrules_total {b c : Byte} (h : b ≠ c) : ∃ s, Overrules b c s ∨ Overrules c b s := by
  have hl : ∀ x : Byte, (charBits x (parityBit x)).length = 9 := fun x => by simp [charBits]
  obtain ⟨n, n1, n2, n3, n4⟩ := first_diff (charBits b (parityBit b)) (charBits c (parityBit c)) (by
    apply Classical.byContradiction
    intro hno
    apply h
    apply charBits_inj
    apply List.ext_getElem?
    intro j
    by_cases hj : j < 9
    · exact Classical.not_not.1 fun hh => hno ⟨j, by rw [hl]; exact hj, by rw [hl]; exact hj, hh⟩
    · rw [List.getElem?_eq_none (by rw [hl]; omega), List.getElem?_eq_none (by rw [hl]; omega)])
  refine ⟨n + 1, ?_⟩
  unfold Overrules
  simp only [Nat.add_sub_cancel]
  rw [List.getElem?_eq_getElem n1, List.getElem?_eq_getElem n2] at n4 ⊢
  cases hb : (charBits b (parityBit b))[n] <;> cases hc : (charBits c (parityBit c))[n]
  · exact absurd (congrArg some (hb.trans hc.symm)) n4
  · exact Or.inl ⟨by omega, n3, rfl, rfl⟩
  · exact Or.inr ⟨by omega, n3.symm, rfl, rfl⟩
  · exact absurd (congrArg some (hb.trans hc.symm)) n4

/-- C84. Of any two different telegrams one wins: there is a first bit in which they differ before
either of them ends. -/
theorem C84_one_wins (g f : Buf) (h : frameOf g ≠ frameOf f) :
    ∃ n s, Wins (frameOf g) (frameOf f) n s ∨ Wins (frameOf f) (frameOf g) n s := by
  have hget : ∀ (t : Buf) k, k < (frameOf t).length → (frameOf t)[k]? = some (t k) ∧
      at' (frameOf t) k = t k := by
    intro t k hk
    rw [frameOf, bytes_length] at hk
    simp [at', frameOf, bytes, List.getD, hk]
  have hlen : ∀ t : Buf, (frameOf t).length = 8 + (t 5 &&& 15#8).toNat := by
    intro t; rw [frameOf, bytes_length, telegramSize]; omega
  obtain ⟨n, n1, n2, n3, n4⟩ := first_diff (frameOf g) (frameOf f) (by
    apply Classical.byContradiction
    intro hno
    have heq : ∀ k, k < (frameOf g).length → k < (frameOf f).length →
        (frameOf g)[k]? = (frameOf f)[k]? := fun k k1 k2 =>
      Classical.not_not.1 fun hh => hno ⟨k, k1, k2, hh⟩
    have h5 := heq 5 (by rw [hlen]; omega) (by rw [hlen]; omega)
    rw [(hget g 5 (by rw [hlen]; omega)).1, (hget f 5 (by rw [hlen]; omega)).1] at h5
    have hl : (frameOf g).length = (frameOf f).length := by
      rw [hlen, hlen, Option.some.inj h5]
    apply h
    apply List.ext_getElem?
    intro j
    by_cases hj : j < (frameOf g).length
    · exact heq j hj (hl ▸ hj)
    · rw [List.getElem?_eq_none (by omega), List.getElem?_eq_none (by omega)])
  have hne : at' (frameOf g) n ≠ at' (frameOf f) n := by
    rw [(hget g n n1).2, (hget f n n2).2]
    rw [(hget g n n1).1, (hget f n n2).1] at n4
    exact fun hh => n4 (by rw [hh])
  obtain ⟨s, hs | hs⟩ := overrules_total hne
  · exact ⟨n, s, Or.inl ⟨n3, n1, n2, hs⟩⟩
  · exact ⟨n, s, Or.inr ⟨n3.symm, n2, n1, hs⟩⟩

theorem overrules_ne {b c : Byte} {s : Nat} (h : Overrules b c s) : b ≠ c := by
  rintro rfl
  obtain ⟨_, _, h3, h4⟩ := h
  rw [h3] at h4
  cases h4

theorem overrules_not_both {b c : Byte} {s r : Nat} (h : Overrules b c s) (h' : Overrules c b r) :
    False := by
  have key : ∀ {b c : Byte} {s r : Nat}, Overrules b c s → Overrules c b r → s < r → False := by
    intro b c s r h h' hlt
    obtain ⟨a1, a2, a3, a4⟩ := h
    obtain ⟨b1, b2, b3, b4⟩ := h'
    have := congrArg (fun l => l[s - 1]?) b2
    rw [List.getElem?_take_of_lt (by omega), List.getElem?_take_of_lt (by omega), a3, a4] at this
    cases this
  rcases Nat.lt_trichotomy s r with hlt | rfl | hlt
  · exact key h h' hlt
  · obtain ⟨_, _, a3, a4⟩ := h
    obtain ⟨_, _, b3, b4⟩ := h'
    rw [a3] at b4
    cases b4
  · exact key h' h hlt

/-- C84. They do not both win. -/
theorem C84_not_both (w f : List Byte) (n s n' s' : Nat) (h : Wins w f n s) : ¬ Wins f w n' s' := by
  intro h'
  have key : ∀ {w f : List Byte} {n s n' s' : Nat}, Wins w f n s → Wins f w n' s' → n < n' →
      False := by
    intro w f n s n' s' h h' hlt
    apply overrules_ne h.2.2.2
    have := congrArg (fun l => l[n]?) h'.1
    rw [List.getElem?_take_of_lt hlt, List.getElem?_take_of_lt hlt] at this
    simp only [at', List.getD, this]
  rcases Nat.lt_trichotomy n n' with hlt | rfl | hlt
  · exact key h h' hlt
  · exact overrules_not_both h.2.2.2 h'.2.2.2
  · exact key h' h hlt

/-! ## Concrete cases -/

instance (e : Irq) : Decidable (IsEdge e) := inferInstanceAs (Decidable (_ ∧ _ ∧ _))
instance (e : Irq) : Decidable (IsTimeout e) := inferInstanceAs (Decidable (_ ∧ _))
instance (p : Pulse) (m n : Nat) : Decidable (p.At m n) := inferInstanceAs (Decidable (_ ∧ _))

instance decPulses : ∀ m ns ps, Decidable (Pulses m ns ps)
  | _, [], [] => isTrue rfl
  | _, [], _ :: _ => isFalse (by simp [Pulses])
  | _, _ :: _, [] => isFalse id
  | m, n :: ns, p :: ps =>
    match decPulses n ns ps with
    | isTrue h => if h' : p.At m n then isTrue ⟨h', h⟩ else isFalse fun x => h' x.1
    | isFalse h => isFalse fun x => h x.2

instance (x : TxIrqs) (l : Nat) (c : Byte) : Decidable (x.Of l c) :=
  inferInstanceAs (Decidable (_ ∧ _ ∧ _ ∧ _ ∧ _))

instance decSentAll : ∀ l bs xs, Decidable (SentAll l bs xs)
  | _, [], [] => isTrue rfl
  | _, [], _ :: _ => isFalse (by simp [SentAll])
  | _, _ :: _, [] => isFalse id
  | l, b :: bs, x :: xs =>
    match decSentAll 278 bs xs with
    | isTrue h => if h' : x.Of l b then isTrue ⟨h', h⟩ else isFalse fun y => h' y.1
    | isFalse h => isFalse fun y => h y.2

instance decCapturedFrom : ∀ u s ns es, Decidable (CapturedFrom u s ns es)
  | _, _, [], [] => isTrue rfl
  | _, _, [], _ :: _ => isFalse (by simp [CapturedFrom])
  | _, _, _ :: _, [] => isFalse id
  | u, s, n :: ns, e :: es =>
    match decCapturedFrom u s ns es with
    | isTrue h =>
      if h' : IsEdge e ∧ u + 104 * n ≤ e.capVal + 104 * s + 35 ∧
        e.capVal + 104 * s < u + 104 * n + 69 then isTrue ⟨h', h⟩ else isFalse fun y => h' y.1
    | isFalse h => isFalse fun y => h y.2

instance decCaptured : ∀ ns es, Decidable (Captured ns es)
  | [], [] => isTrue rfl
  | [], _ :: _ => isFalse (by simp [Captured])
  | _ :: _, [] => isFalse id
  | n :: ns, e :: es =>
    match decCaptured ns es with
    | isTrue h =>
      if h' : e.cap = true ∧ e.tmo = false ∧ e.spike = false ∧ 104 * n ≤ e.capVal + 35 ∧
        e.capVal < 104 * n + 69 then isTrue ⟨h', h⟩ else isFalse fun y => h' y.1
    | isFalse h => isFalse fun y => h y.2

instance (x : LostIrqs) (l late : Nat) (c w : Byte) (s : Nat) : Decidable (x.Of l late c w s) :=
  inferInstanceAs (Decidable (_ ∧ _ ∧ _ ∧ _ ∧ _ ∧ _ ∧ _ ∧ _ ∧ _))

instance (c : CharIrqs) (b : Byte) (p : Bool) : Decidable (c.Of b p) :=
  inferInstanceAs (Decidable (_ ∧ _ ∧ _ ∧ _ ∧ _))

instance decAllOf : ∀ bs cs, Decidable (AllOf bs cs)
  | [], [] => isTrue rfl
  | [], _ :: _ => isFalse (by simp [AllOf])
  | _ :: _, [] => isFalse id
  | b :: bs, c :: cs =>
    match decAllOf bs cs with
    | isTrue h => if h' : c.Of b (parityBit b) then isTrue ⟨h', h⟩ else isFalse fun y => h' y.1
    | isFalse h => isFalse fun y => h y.2

instance (w c : Byte) (s : Nat) : Decidable (Overrules w c s) :=
  inferInstanceAs (Decidable (_ ∧ _ ∧ _ ∧ _))

instance (w f : List Byte) (n s : Nat) : Decidable (Wins w f n s) :=
  inferInstanceAs (Decidable (_ ∧ _ ∧ _ ∧ _))

/-- Device 1.1.1 queues a telegram to 1/0/1 and is about to send it. -/
def aEs : List Ev :=
  [.irq dTimeout, .queue 0x1101#16 (ofList [0xBC, 0, 0, 0x08, 0x01, 0xE1, 0x00, 0x81]) 8,
    .irq dTimeout]

/-- The telegram with the sender's address and the check octet. -/
def aBuf : Buf := prepareTelegram 0x1101#16 (ofList [0xBC, 0, 0, 0x08, 0x01, 0xE1, 0x00, 0x81]) 8

example : frameOf aBuf = [0xBC, 0x11, 0x01, 0x08, 0x01, 0xE1, 0x00, 0x81, 0x3A] := by decide +kernel

theorem aEs_about : AboutToSend (run boot aEs).1 aBuf :=
  ⟨by decide +kernel, by decide +kernel, by decide +kernel, by decide +kernel, rfl⟩

/-- Pulses with an edge of another device 3 µs early and the own one 10 µs late. -/
def aPulses : Nat → List Nat → List Pulse
  | _, [] => []
  | m, n :: ns =>
    ⟨[dEdge (104 * (n - m) - 38), dEdge (104 * (n - m) - 25)], dTimeout⟩ :: aPulses n ns

/-- A character sent while another device sends the same, its start bit 10 µs earlier. -/
def aTx (lead : Nat) (c : Byte) : TxIrqs :=
  ⟨dEdge (lead - 10), dTimeout, aPulses 0 (zeroSlots c (parityBit c)), dTimeout⟩

/-- Overruled by an edge `d` µs late. -/
def aLost (lead : Nat) (c w : Byte) (s d : Nat) : LostIrqs :=
  ⟨dEdge (lead - 10), dTimeout, aPulses 0 (zerosBefore c s),
    dEdge (104 * (s - lastBefore c s) - 35 + d),
    (zerosAfter w s).map fun n => dEdge (104 * (s - lastBefore c s) - 35 + d + 104 * (n - s) + 4),
    dTimeout⟩

/-- A received character. -/
def aRx (c : Byte) : CharIrqs :=
  ⟨dEdge 10, (zeroSlots c (parityBit c)).map fun n => dEdge (104 * n + 3), dTimeout⟩

example := C84_winner aEs aBuf aEs_about
  (aTx (run boot aEs).1.bus.mPwm 0xBC#8 :: [0x11, 0x01, 0x08, 0x01, 0xE1, 0x00, 0x81, 0x3A].map (aTx 278))
  (by decide +kernel) dTimeout rfl

example := C84_undisturbed_bits aEs aBuf 1000 _ (by decide +kernel) (by decide +kernel)
  (by decide +kernel) rfl (aTx (run boot aEs).1.bus.mPwm 0xBC#8) 0xBC#8 (by decide +kernel)
  (by decide +kernel) rfl

/-- The telegram of 1.1.2 wins against the one of 1.1.1: 0x02 has a zero in the first bit. -/
theorem dTel_wins : Wins dTel (frameOf aBuf) 2 1 := by decide +kernel

example := C84_loser_partial aEs aBuf aEs_about dTel 2 1 dTel_wins
  [aTx (run boot aEs).1.bus.mPwm 0xBC#8, aTx 278 0x11#8] (by decide +kernel)
  (aLost 278 0x01#8 0x02#8 1 32) (by decide +kernel)
  ((dTel.drop 3).map aRx) (by decide +kernel) dTimeout rfl rfl (by decide) (by decide)
  (by decide +kernel) (by unfold StandardData; decide) (by decide)
  (Or.inl (Or.inl (by unfold GroupDest destOf; decide))) (by decide +kernel) _ rfl

example := C84_loser_silent aEs aBuf aEs_about dTel 2 1 dTel_wins
  [aTx (run boot aEs).1.bus.mPwm 0xBC#8, aTx 278 0x11#8] (by decide +kernel)
  (aLost 278 0x01#8 0x02#8 1 32) (by decide +kernel)
  ((dTel.drop 3).map aRx) (by decide +kernel) 0

example := C84_one_wins aBuf (ofList dTel) (by decide +kernel)
example := C84_not_both dTel (frameOf aBuf) 2 1 0 1 dTel_wins

/-- C84 (finding). The receiver accepts bits up to 33 µs late, but the sender that is overruled by an
edge 33 µs late takes it for the following bit: of the winner's character 0x02 it reads 0x05, in the
same situation as above and with everything else within the tolerances. -/
theorem C84_33_us_late_misread :
    ∃ (es : List Ev) (f : Buf) (w : List Byte) (n s : Nat) (xs : List TxIrqs) (y : LostIrqs),
      AboutToSend (run boot es).1 f ∧ Wins w (frameOf f) n s ∧
      SentAll (run boot es).1.bus.mPwm (w.take n) xs ∧
      y.Of (if n = 0 then (run boot es).1.bus.mPwm else 278) 33 (at' (frameOf f) n) (at' w n) s ∧
      ∃ c, (run (run boot es).1 (xs.flatMap (·.events) ++ y.events)).2.getLast? =
        some (.rxChar c true) ∧ c ≠ at' w n :=
  ⟨aEs, aBuf, dTel, 2, 1, [aTx (run boot aEs).1.bus.mPwm 0xBC#8, aTx 278 0x11#8],
    aLost 278 0x01#8 0x02#8 1 33, aEs_about, dTel_wins, by decide +kernel, by decide +kernel,
    0x05#8, by decide +kernel, by decide +kernel⟩

end Verif.Bus
