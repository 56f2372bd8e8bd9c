import Verif.Bus.TimeInv
import Verif.Bus.TimeLemmas

/-!
# C92 — two devices keep each other's timing
-/

namespace Verif.Bus

open Verif.Knx

/-! ## The sender -/

theorem txOne_end (i : Irq) (e t : Nat) (b : Bus) (hs : b.st = .sendStart) (he : e ≤ 34)
    (hp : 30 ≤ b.mPwm) (hm : b.mTime = b.mPwm + 34) (c : Byte)
    (hc : (if b.sendAck ≠ 0#8 then some b.sendAck else b.sendCur.map fun f => f b.nextByteIndex)
      = some c) :
    (txOne i e t b).2.2.1 = t + b.mPwm + 1075 ∧ (txOne i e t b).2.2.2.tInt = b.tInt ∧
    (txOne i e t b).2.2.2.tReset = b.tReset ∧ CharEnd (txOne i e t b).2.2.2 := by
  obtain ⟨b0, h1, h2, h3, h4, h5, h6, h7, h8, h9, h10⟩ := txStep_start i e t b hs he hp hm c hc
  have hpl := (pulses_char c).1
  have hsh := pulses_shift 11 (withParity c.toNat) 1 (t + b.mPwm + 35)
  rw [hpl] at hsh
  obtain ⟨b', g1, ⟨s1, s2, s3, s4, s5, s6⟩, g3⟩ := txLoop_pulses i e he 11 (t + b.mPwm + 35) b0 h2 _ _
    (by rw [h3, h4]; exact hsh)
  unfold txOne
  simp only [h1, g1]
  exact ⟨by dsimp only, s5.trans h9, s6.trans h10, g3⟩

theorem txMany_end (i : Irq) (e : Nat) (he : e ≤ 34) (f : Buf) (n t : Nat) (b : Bus)
    (hs : b.st = .sendStart) (hp : 30 ≤ b.mPwm) (hm : b.mTime = b.mPwm + 34)
    (ha : b.sendAck = 0#8) (hf : b.sendCur = some f)
    (hn : b.nextByteIndex + n + 1 = b.sendTelegramLen) :
    (txMany i e (n + 1) t b).2.2.1 = t + b.mPwm + 1353 * n + 1075 ∧
    (txMany i e (n + 1) t b).2.2.2.mTime = 68 ∧
    (txMany i e (n + 1) t b).2.2.2.tInt = b.tInt ∧
    (txMany i e (n + 1) t b).2.2.2.tReset = b.tReset ∧
    (txMany i e (n + 1) t b).2.2.2.sendAck = 0#8 := by
  induction n generalizing t b with
  | zero =>
    obtain ⟨h1, h2, h3⟩ := C10_send i e t b hs he hp hm (f b.nextByteIndex) (by simp [ha, hf])
    obtain ⟨g1, g2, g3, g4, g5⟩ := h3 _ rfl
    obtain ⟨k1, k2, k3, k4⟩ := txOne_end i e t b hs he hp hm (f b.nextByteIndex) (by simp [ha, hf])
    unfold CharEnd at k4
    rw [if_neg (by simp [ha] at g4; omega)] at k4
    simp only [txMany]
    exact ⟨by omega, k4.2, k2, k3, g2.trans ha⟩
  | succ n ih =>
    obtain ⟨h1, h2, h3⟩ := C10_send i e t b hs he hp hm (f b.nextByteIndex) (by simp [ha, hf])
    obtain ⟨g1, g2, g3, g4, g5⟩ := h3 _ rfl
    obtain ⟨k1, k2, k3, k4⟩ := txOne_end i e t b hs he hp hm (f b.nextByteIndex) (by simp [ha, hf])
    have g4' : (txOne i e t b).2.2.2.nextByteIndex = b.nextByteIndex + 1 := by
      rw [g4, if_neg (by simp [ha])]
    rw [if_pos ⟨by omega, by rw [g2, ha]⟩] at g5
    obtain ⟨l1, l2, l3, l4⟩ := g5
    obtain ⟨i1, i2, i3, i4, i5⟩ := ih (txOne i e t b).2.2.1 (txOne i e t b).2.2.2 l1 l3 l4
      (by rw [g2, ha]) (by rw [g1, hf]) (by omega)
    have e3 : (txMany i e (n + 1 + 1) t b).2.2 =
        (txMany i e (n + 1) (txOne i e t b).2.2.1 (txOne i e t b).2.2.2).2.2 := rfl
    rw [e3]
    exact ⟨by omega, i2, i3.trans k2, i4.trans k3, i5⟩

theorem txStep_run (i : Irq) (e t : Nat) (b : Bus) : ∃ evs, run ⟨b, false⟩ evs =
    (⟨(txStep i e t b).2.2.2, false⟩, (txStep i e t b).2.1) := by
  unfold txStep
  split
  · refine ⟨[.irq { i with
      cap := true, tmo := false, capVal := b.mPwm + e, now := b.mPwm + e, spike := false },
      .irq { i with cap := false, tmo := true }], ?_⟩
    simp only [run, step_isr, List.append_nil]
  · refine ⟨[.irq { i with cap := false, tmo := true }], ?_⟩
    simp only [run, step_isr, List.append_nil]

theorem txLoop_run (i : Irq) (e n t : Nat) (b : Bus) : ∃ evs, run ⟨b, false⟩ evs =
    (⟨(txLoop i e n t b).2.2.2, false⟩, (txLoop i e n t b).2.1) := by
  induction n generalizing t b with
  | zero => exact ⟨[], rfl⟩
  | succ n ih =>
    simp only [txLoop]
    split
    · obtain ⟨v1, h1⟩ := txStep_run i e t b
      obtain ⟨v2, h2⟩ := ih (txStep i e t b).2.2.1 (txStep i e t b).2.2.2
      exact ⟨v1 ++ v2, by rw [run_append, h1]; simp only [h2]⟩
    · exact ⟨[], rfl⟩

theorem txOne_run (i : Irq) (e t : Nat) (b : Bus) : ∃ evs, run ⟨b, false⟩ evs =
    (⟨(txOne i e t b).2.2.2, false⟩, (txOne i e t b).2.1) := by
  unfold txOne
  obtain ⟨v1, h1⟩ := txStep_run i e t b
  obtain ⟨v2, h2⟩ := txLoop_run i e 11 (txStep i e t b).2.2.1 (txStep i e t b).2.2.2
  exact ⟨v1 ++ v2, by rw [run_append, h1]; simp only [h2]⟩

theorem txMany_run (i : Irq) (e n t : Nat) (b : Bus) : ∃ evs, run ⟨b, false⟩ evs =
    (⟨(txMany i e n t b).2.2.2, false⟩, (txMany i e n t b).2.1) := by
  induction n generalizing t b with
  | zero => exact ⟨[], rfl⟩
  | succ n ih =>
    simp only [txMany]
    obtain ⟨v1, h1⟩ := txOne_run i e t b
    obtain ⟨v2, h2⟩ := ih (txOne i e t b).2.2.1 (txOne i e t b).2.2.2
    exact ⟨v1 ++ v2, by rw [run_append, h1]; simp only [h2]⟩

theorem frameEdges_range (g : Nat → Byte) (n s : Nat) :
    frameEdges s ((List.range n).map g) =
      (List.range n).map fun k => charEdges (s + 1353 * k) (g k) := by
  induction n generalizing g s with
  | zero => rfl
  | succ n ih =>
    rw [List.range_succ_eq_map, List.map_cons, List.map_map, frameEdges, ih, List.map_cons,
      List.map_map]
    congr 1
    apply List.map_congr_left
    intro k _
    simp only [Function.comp]
    rw [show s + 1353 + 1353 * k = s + 1353 * (k + 1) by omega]

theorem frameEdges_last (s : Nat) (l : List Byte) (x : Byte) :
    lastStart (frameEdges s (x :: l)) = s + 1353 * l.length := by
  induction l generalizing s x with
  | nil => simp [frameEdges, lastStart, charEdges]
  | cons y l ih =>
    have := ih (s + 1353) y
    simp only [frameEdges, lastStart, List.getLastD_cons, List.length_cons] at this ⊢
    rw [this]; omega

/-- The acknowledge arrives at a device that has just sent its telegram. -/
theorem ack_heard (ea : List Ev) (b : Bus) (hb : (run boot ea).1 = ⟨b, false⟩)
    (hs : b.st = .sendEndTx) (ha : b.sendAck = 0#8) (hm : b.mTime = 68) (hi : b.tInt = true)
    (hr : b.tReset = true) (L : Nat) (a : Around) (hl : ∀ t, a.late t ≤ 200) (s : Nat)
    (h : List Nat) (hh : HeardChar 25 (charEdges s 0xcc#8) h)
    (h1 : L + 2601 ≤ h.getD 0 0) (h2 : h.getD 0 0 < L + 2836) :
    (hear a (h.length + 4) (L + 1075) b h).1 =
      [.txEnd, .rxBegin, .rxChar 0xcc#8 true, .finished true] := by
  obtain ⟨k, xs, rfl⟩ := heardChar_cons hh
  simp only [List.getD_cons_zero] at h1 h2
  have hhead : ∀ m, m ≤ k → ∀ y, (k :: xs).head? = some y → m ≤ y := by
    intro m hm y hy
    simp at hy
    omega
  -- the end of the transmission
  have e1 : isr (matchIrq a (L + 1075) b) b = sendEndTx { b with tSet := none } := by
    rw [isr_noSpike rfl]
    simp only [dispatch, hs]
  have e2 : ∃ b1, sendEndTx { b with tSet := none } = (b1, [.txEnd]) ∧ b1.st = .ackWindow ∧
      b1.mTime = 1457 ∧ b1.tInt = true ∧ b1.tReset = false ∧ b1.tSet = none := by
    unfold sendEndTx
    rw [if_neg (by simpa using ha)]
    simp only []
    by_cases h1 : b.repeatTel = true
    · by_cases h2 : b.busyWait = true
      · simp only [h1, h2, if_true]
        exact ⟨_, rfl, rfl, rfl, rfl, rfl, rfl⟩
      · simp only [h1, if_neg h2, if_true]
        exact ⟨_, rfl, rfl, rfl, rfl, rfl, rfl⟩
    · simp only [if_neg h1]
      exact ⟨_, rfl, rfl, rfl, rfl, rfl, rfl⟩
  obtain ⟨b1, f1, f2, f3, f4, f5, f6⟩ := e2
  rw [f1] at e1
  -- the window opens
  have e3 : ∃ b2, isr (matchIrq a (L + 1144) b1) b1 = (b2, []) ∧ b2.st = .waitAck ∧
      b2.capInt = true ∧ b2.mTime = 1692 ∧ b2.tReset = false ∧ b2.tSet = none := by
    rw [isr_noSpike rfl]
    simp only [dispatch, f2, ackWindow]
    exact ⟨_, rfl, rfl, rfl, rfl, f5, rfl⟩
  obtain ⟨b2, e3, g2, g3, g4, g5, g6⟩ := e3
  -- the acknowledge
  obtain ⟨ci, c1, c2, c3, c4⟩ := hear_char a hl (L + 1144) k xs [] b2
    (Or.inr (Or.inr (Or.inr g2))) g3 (Or.inl (by omega)) (by omega)
    (by omega) (by rw [g5]; intro hh; cases hh) (heard_bound hh) (by simp)
  rw [List.append_nil] at c2
  obtain ⟨t1, t2, t3, t4, t5⟩ := timerOf_eq c4
  have hstep : step (run boot ea).1 (.irq (matchIrq a (L + 1075) b)) = (⟨b1, false⟩, [.txEnd]) := by
    rw [hb, step_isr, e1]
  have hfin := C14_ack_completes ea (.irq (matchIrq a (L + 1075) b)) (matchIrq a (L + 1144) b1)
    (matchIrq a (k + 1142) (run ⟨b2, false⟩ ci.events).1.bus) ci (by rw [hstep]; simp) rfl
    (charIrqs_of (by omega) hh c1) rfl
  rw [hstep] at hfin
  simp only [run, List.cons_append, step_isr, e3, List.nil_append] at hfin
  rw [run_append] at hfin
  simp only [run] at hfin
  rw [sys_eta c3, step_isr] at hfin
  rw [show (k :: xs).length + 4 = 1 + (1 + ((xs.length + 2) + 1)) by simp; omega]
  rw [hear_add, hear_one, hearStep_match a _ b _ hi (hhead _ (by omega)), e1]
  simp only [hr, if_true, f6, zeroAt, hm]
  rw [show L + 1075 + 68 + 1 = L + 1144 by omega, hear_add, hear_one,
    hearStep_match a _ b1 _ f4 (hhead _ (by omega)), e3]
  simp only [f5, g6, zeroAt, Bool.false_eq_true, if_false]
  rw [hear_add, c2]
  simp only [hear_one]
  rw [hearStep_match a _ _ _ t2 (by simp)]
  simp only [List.nil_append, List.singleton_append, List.cons.injEq, true_and]
  simpa using hfin

/-! ## The receiver -/

theorem rxChars_none (l : List (Byte × Bool)) : lastDelivered (rxChars l) = none := by
  induction l with
  | nil => rfl
  | cons x l ih => simp only [rxChars, List.map_cons, lastDelivered]; rw [← rxChars, ih]

theorem rx_none (l : List (Byte × Bool)) : lastDelivered (.rxBegin :: rxChars l) = none := by
  simp only [lastDelivered, rxChars_none]

/-- A frame arrives at a device that is ready for it, which begins to acknowledge it. -/
theorem frame_heard (eb : List Ev) (hp : (run boot eb).1.paused = false)
    (hs : (run boot eb).1.bus.st = .idle ∨ (run boot eb).1.bus.st = .wait50)
    (hfree : (run boot eb).1.bus.telegramLen = 0) (hm : 200 ≤ (run boot eb).1.bus.mTime)
    (a : Around) (hl : ∀ t, a.late t ≤ 200) (s : Nat) (fr : List Byte) (h8 : 8 ≤ fr.length)
    (h23 : fr.length ≤ 23) (hs' : List (List Nat)) (hh : HeardFrame 25 (frameEdges s fr) hs')
    (z : Nat) (hz : z ≤ firstStart hs') (hz2 : firstStart hs' < z + (run boot eb).1.bus.mTime)
    (h2 : 2 ≤ firstStart hs')
    (hck : ChecksumOk fr) (hstd : StandardData fr)
    (hadr : ∀ t, AddressedTo (a.env t).own (a.env t).known fr ∨ (a.env t).tlEnabled = false)
    (hll : ∀ t, (a.env t).llEnabled = true)
    (hnew : NewMessage (lastDelivered (run boot eb).2) fr) :
    ∃ b', hear a (hs'.flatten.length + hs'.length + 2) z (run boot eb).1.bus hs'.flatten =
        (.rxBegin :: rxChars (fr.map fun x => (x, true)) ++ [.deliver fr, .ackBegin],
          lastStart hs' + 2601, b', []) ∧
      b'.st = .sendStart ∧ b'.sendAck = 0xcc#8 ∧ b'.mPwm = 104 ∧ b'.mTime = 138 := by
  have hcap := C14_listens eb hp (by rcases hs with h | h <;> rw [h] <;> decide)
    (by rcases hs with h | h <;> rw [h] <;> decide)
  have hB := sys_eta hp
  obtain ⟨x, bs, rfl⟩ : ∃ x bs, fr = x :: bs := by
    cases fr with
    | nil => simp at h8
    | cons x bs => exact ⟨x, bs, rfl⟩
  cases hs' with
  | nil => exact hh.elim
  | cons h hs2 =>
  obtain ⟨g1, g2, g3⟩ := hh
  obtain ⟨k, xs, rfl⟩ := heardChar_cons g2
  simp only [firstStart, charEdges, List.getD_cons_zero] at g3 hz hz2 h2
  have hhead : ∀ y, hs2.flatten.head? = some y → k + 1141 ≤ y := by
    intro y hy
    cases bs with
    | nil =>
      simp only [frameEdges, HeardFrom] at g3
      subst g3
      simp at hy
    | cons c' bs' =>
      cases hs2 with
      | nil => exact g3.elim
      | cons h' hs3 =>
        obtain ⟨f1, f2, f3⟩ := g3
        obtain ⟨k', xs', rfl⟩ := heardChar_cons f2
        simp only [charEdges, List.getD_cons_zero, SameGap] at f1
        simp at hy
        omega
  obtain ⟨ci, c1, c2, c3, c4⟩ := hear_char a hl z k xs hs2.flatten (run boot eb).1.bus
    (hs.elim (fun h => Or.inr (Or.inl h)) fun h => Or.inr (Or.inr (Or.inl h))) hcap
    (Or.inl hz2) hz h2 (fun _ => ⟨by omega, hm⟩) (heard_bound g2) hhead
  have hof := charIrqs_of h2 g2 c1
  have hr := recv_char (s := ⟨(run boot eb).1.bus, false⟩) rfl
    (hs.elim (fun h => Or.inr (Or.inl h)) fun h => Or.inr (Or.inr (Or.inl h))) hof
  obtain ⟨cs, d1, d2, d3⟩ := hear_chars a hl bs s k hs2 g3 _ hr.2.1 c4
  rw [← sys_eta c3] at d2 d3
  obtain ⟨r1, r2, r3, r4⟩ := recv_all bs cs _ c3 hr.2.1 d1
  have hne : (run boot eb).1.bus.st ≠ .waitStart := by rcases hs with h | h <;> rw [h] <;> decide
  -- the state at the end of the last character
  have hrun : run boot (eb ++ (ci.events ++ cs.flatMap (·.events))) =
      ((run (run ⟨(run boot eb).1.bus, false⟩ ci.events).1 (cs.flatMap (·.events))).1,
        (run boot eb).2 ++ .rxBegin :: rxChars ((x :: bs).map fun y => (y, true))) := by
    rw [run_append, run_append, ← hB]
    rw [← hB] at hr r1
    rw [hr.1, r1, if_neg hne]
    simp [rxChars]
  generalize hC : (run (run ⟨(run boot eb).1.bus, false⟩ ci.events).1
    (cs.flatMap (·.events))).1 = C at *
  obtain ⟨b, p⟩ := C
  simp only at r2 r3 r4 d3 d2
  subst r3
  obtain ⟨t1, t2, t3, t4, t5⟩ := timerOf_eq d3
  have hmap : ((x :: bs).map fun y => (y, true)).map Prod.fst = x :: bs := by
    rw [List.map_map]; exact List.map_id' _
  have hlen : ((x :: bs).map fun y => (y, true)).length = (x :: bs).length := by
    rw [List.length_map]
  have hfree' : b.telegramLen = 0 :=
    ((congrArg (fun q => q.1.2) r4).trans (congrArg (fun q => q.1.2) hr.2.2.2)).trans hfree
  generalize hK : (((k :: xs) :: hs2).getLastD []).getD 0 0 = K at *
  have hK2 : (hs2.getLastD [k]).getD 0 0 = K := by
    rw [← hK]
    cases hs2 with
    | nil => simp
    | cons y l => simp only [List.getLastD_cons]
  rw [hK2] at d2
  have hacc := C13_accepts (eb ++ (ci.events ++ cs.flatMap (·.events)))
    (matchIrq a (K + 1142) b) (run boot eb).2
    ((x :: bs).map fun y => (y, true)) (by rw [hrun]; exact r2) (by rw [hrun]) (by simp)
    (by rw [hlen]; exact h8) (by rw [hlen]; exact h23)
    (by rw [hmap]; exact hck) (by rw [hmap]; exact hstd) (by rw [hmap]; exact hadr _)
    (by rw [hrun]; exact hfree')
    (by rw [hmap, hrun]; simp only [lastDelivered_append, rx_none]; exact hnew) rfl
  rw [hrun, hmap] at hacc
  simp only [step_isr] at hacc
  obtain ⟨a1, _, _, a4⟩ := hacc
  obtain ⟨a5, a6⟩ := a4 (hll _)
  -- the timer after the frame
  have hw : (isr (matchIrq a (K + 1142) b) b).1.mTime = 1458 ∧
      (isr (matchIrq a (K + 1142) b) b).1.tReset = true ∧
      (isr (matchIrq a (K + 1142) b) b).1.tSet = none := by
    have hh : ∃ c v, isr (matchIrq a (K + 1142) b) b = handleTelegram (matchIrq a (K + 1142) b) c v ∧
        c.tReset = true ∧ c.tSet = none := by
      rw [isr_noSpike rfl]
      simp only [dispatch, r2, waitStart]
      refine ⟨_, _, rfl, ?_, ?_⟩ <;> split <;> rfl
    obtain ⟨c, v, q1, q2, q3⟩ := hh
    rw [q1] at a5 ⊢
    obtain ⟨p1, p2, p3⟩ := handle_pace (matchIrq a (K + 1142) b) c v
    refine ⟨?_, p2.trans q2, p3.trans q3⟩
    rcases p1 with ⟨_, h⟩ | ⟨h, _⟩
    · exact h
    · rw [a5] at h; cases h
  obtain ⟨w1, w2, w3⟩ := hw
  have hti : (isr (matchIrq a (K + 1142) b) b).1.tInt = true := by
    have := C14_timer_enabled (eb ++ (ci.events ++ cs.flatMap (·.events)) ++
      [.irq (matchIrq a (K + 1142) b)])
    rw [run_append, hrun] at this
    simp only [run, step_isr] at this
    exact this trivial (by rw [a5]; decide)
  generalize hD : (isr (matchIrq a (K + 1142) b) b).1 = D at *
  -- the acknowledge begins
  obtain ⟨E, hlast, x1, x2, x3, x4, x5⟩ : ∃ E, isr (matchIrq a (K + 1142) D) D = (E, [.ackBegin]) ∧
      E.st = .sendStart ∧ E.sendAck = 0xcc#8 ∧ E.mPwm = 104 ∧ E.mTime = 138 ∧ E.tSet = none := by
    rw [isr_noSpike rfl]
    simp only [dispatch, a5, waitAckTx]
    exact ⟨_, rfl, rfl, a6, rfl, rfl, rfl⟩
  refine ⟨E, ?_, x1, x2, x3, x4⟩
  rw [show ((k :: xs) :: hs2).flatten.length + ((k :: xs) :: hs2).length + 2 =
      (xs.length + 2) + ((hs2.flatten.length + hs2.length) + (1 + 1)) by simp; omega,
    hear_add]
  simp only [List.flatten_cons, List.cons_append, c2]
  rw [hear_add]
  simp only [d2]
  rw [hear_add]
  simp only [hear_one]
  rw [hearStep_match a _ b _ t2 (by simp), hD, a1]
  simp only [t3, w3, zeroAt, Bool.false_eq_true, if_false]
  rw [hearStep_match a _ D _ hti (by simp), hlast]
  simp only [w1, w2, if_true]
  simp only [x5, zeroAt, Prod.mk.injEq, and_true]
  constructor
  · rw [hr.1, r1, if_neg hne]
    simp [rxChars]
  · show K + 1142 + 1458 + 1 = lastStart _ + 2601
    unfold lastStart
    rw [hK]

/-! ## Both -/

theorem txMany_frame (ea : List Ev) (f : Buf) (hA : AboutToSend (run boot ea).1 f) (i : Irq)
    (e t : Nat) (he : e ≤ 34) :
    (txMany i e (frameOf f).length t (run boot ea).1.bus).1 =
      frameEdges (t + (run boot ea).1.bus.mPwm) (frameOf f) ∧
    (txMany i e (frameOf f).length t (run boot ea).1.bus).2.1 = txChars (frameOf f) ∧
    ∃ b ev, (txMany i e (frameOf f).length t (run boot ea).1.bus).2.2 =
        (lastStart (frameEdges (t + (run boot ea).1.bus.mPwm) (frameOf f)) + 1075, b) ∧
      (run boot (ea ++ ev)).1 = ⟨b, false⟩ ∧ b.st = .sendEndTx ∧ b.sendAck = 0#8 ∧ b.mTime = 68 ∧
      b.tInt = true ∧ b.tReset = true := by
  obtain ⟨hl, _, _⟩ := hA.len
  obtain ⟨h1, h2, h3, h4, h5⟩ := hA
  have hlead := boot_lead ea
  have hpace := boot_pace ea h1
  have hti := C14_timer_enabled ea h1 (by rw [h2]; decide)
  have hlen : (frameOf f).length = telegramSize f + 1 := by rw [frameOf, bytes_length]
  have hlp : 30 ≤ (run boot ea).1.bus.mPwm := (hlead h2).1
  unfold Pace at hpace
  rw [h2] at hpace
  obtain ⟨hr, hm⟩ := hpace
  have hfr : frameOf f = (List.range (telegramSize f + 1)).map f := rfl
  have hne : frameOf f = f 0 :: (List.range (telegramSize f)).map (fun k => f (k + 1)) := by
    rw [hfr, List.range_succ_eq_map, List.map_cons, List.map_map]
    rfl
  have c1 := C10_send_frame i e he f (telegramSize f) t (run boot ea).1.bus h2 hlp hm h3 h5
    (by rw [h4, hl, hlen]; omega)
  have c2 := txMany_end i e he f (telegramSize f) t (run boot ea).1.bus h2 hlp hm h3 h5
    (by rw [h4, hl, hlen]; omega)
  rw [h4] at c1
  simp only [Nat.zero_add] at c1
  rw [hlen]
  refine ⟨?_, c1.2.1, ?_⟩
  · rw [c1.1, hfr, frameEdges_range]
  · obtain ⟨ev, hev⟩ := txMany_run i e (telegramSize f + 1) t (run boot ea).1.bus
    refine ⟨(txMany i e (telegramSize f + 1) t (run boot ea).1.bus).2.2.2, ev, ?_, ?_, c1.2.2,
      c2.2.2.2.2, c2.2.1, c2.2.2.1.trans hti, c2.2.2.2.1.trans hr⟩
    · rw [hne, frameEdges_last, List.length_map, List.length_range]
      exact Prod.ext c2.1 rfl
    · rw [run_append, sys_eta h1, hev]

theorem frameOf_len (f : Buf) : 8 ≤ (frameOf f).length ∧ (frameOf f).length ≤ 23 := by
  rw [frameOf, bytes_length, telegramSize]
  have : (f 5 &&& 15#8).toNat ≤ 15 := by
    rw [BitVec.toNat_and]; exact Nat.and_le_right
  omega

/-- C92. Device A, in any reachable state, begins to send its telegram; device B, in any reachable
state, is idle or in the pause before a transmission, has room for a telegram and is addressed.
B's timer captures A's pulses on its own clock, each bit within 25 µs of its place relative to the
start bit of its character and each start bit within 25 µs of its place relative to the one before;
A's timer captures B's pulses likewise, the start bit of the acknowledge within 104 µs.  Then the
timers of both devices, left to themselves, do the rest: B takes the whole frame as one frame, hands
exactly it to its upper layer and acknowledges it; A has its acknowledge window open when the
acknowledge comes and reports success to its upper layer. -/
theorem C92_timing (ea : List Ev) (f : Buf) (hA : AboutToSend (run boot ea).1 f) (i : Irq)
    (e t : Nat) (he : e ≤ 34)
    (eb : List Ev) (hp : (run boot eb).1.paused = false)
    (hs : (run boot eb).1.bus.st = .idle ∨ (run boot eb).1.bus.st = .wait50)
    (hfree : (run boot eb).1.bus.telegramLen = 0) (hm : 200 ≤ (run boot eb).1.bus.mTime)
    (a : Around) (hl : ∀ t, a.late t ≤ 200)
    (hck : ChecksumOk (frameOf f)) (hstd : StandardData (frameOf f))
    (hadr : ∀ t, AddressedTo (a.env t).own (a.env t).known (frameOf f) ∨
      (a.env t).tlEnabled = false)
    (hll : ∀ t, (a.env t).llEnabled = true)
    (hnew : NewMessage (lastDelivered (run boot eb).2) (frameOf f))
    -- the telegram on the line, as A sends it and as B hears it
    (tx : List (List Nat) × List Out × Nat × Bus)
    (htx : tx = txMany i e (frameOf f).length t (run boot ea).1.bus)
    (hs' : List (List Nat)) (hh : HeardFrame 25 tx.1 hs')
    (z : Nat) (hz : z ≤ firstStart hs') (hz2 : firstStart hs' < z + (run boot eb).1.bus.mTime)
    (h2 : 2 ≤ firstStart hs')
    (rx : List Out × Nat × Bus × List Nat)
    (hrx : rx = hear a (hs'.flatten.length + hs'.length + 2) z (run boot eb).1.bus hs'.flatten)
    -- the acknowledge on the line, as B sends it and as A hears it
    (i' : Irq) (e' : Nat) (he' : e' ≤ 34)
    (ack : List Nat × List Out × Nat × Bus) (hack : ack = txOne i' e' rx.2.1 rx.2.2.1)
    (a' : Around) (hl' : ∀ t, a'.late t ≤ 200)
    (h : List Nat) (hh' : HeardChar 25 ack.1 h)
    (hgap : SameGap 104 (lastStart hs') (ack.1.getD 0 0) (lastStart tx.1) (h.getD 0 0)) :
    tx.2.1 = txChars (frameOf f) ∧
    rx.1 = .rxBegin :: rxChars ((frameOf f).map fun x => (x, true)) ++
      [.deliver (frameOf f), .ackBegin] ∧
    ack.2.1 = txChars [0xcc#8] ∧
    (hear a' (h.length + 4) tx.2.2.1 tx.2.2.2 h).1 =
      [.txEnd, .rxBegin, .rxChar 0xcc#8 true, .finished true] := by
  obtain ⟨k1, k2, b, ev, k3, k4, k5, k6, k7, k8, k9⟩ := txMany_frame ea f hA i e t he
  rw [← htx] at k1 k2 k3
  rw [k1] at hh hgap
  obtain ⟨b', r1, r2, r3, r4, r5⟩ := frame_heard eb hp hs hfree hm a hl _ (frameOf f)
    (frameOf_len f).1 (frameOf_len f).2 hs' hh z hz hz2 h2 hck hstd hadr hll hnew
  rw [← hrx] at r1
  obtain ⟨s1, s2, _⟩ := C10_send i' e' rx.2.1 rx.2.2.1 (by rw [r1]; exact r2) he'
    (by rw [r1]; show 30 ≤ b'.mPwm; omega) (by rw [r1]; show b'.mTime = b'.mPwm + 34; omega) 0xcc#8
    (by rw [r1]; show (if b'.sendAck ≠ 0#8 then some b'.sendAck else _) = _; rw [r3]; rfl)
  rw [← hack] at s1 s2
  have hpw : rx.2.1 + rx.2.2.1.mPwm = lastStart hs' + 2705 := by
    rw [r1]; show lastStart hs' + 2601 + b'.mPwm = _; omega
  rw [hpw] at s1
  rw [s1] at hh' hgap
  simp only [charEdges, List.getD_cons_zero, SameGap] at hgap
  refine ⟨k2, by rw [r1], s2, ?_⟩
  rw [k3]
  exact ack_heard (ea ++ ev) b k4 k5 k6 k7 k8 k9 _ a' hl' _ h hh' (by omega) (by omega)

/-! ### A concrete case -/

/-- The edges as heard `d` µs later, the bits after the start bit another 7 µs later. -/
def lateBy (d : Nat) : List Nat → List Nat
  | [] => []
  | s :: xs => (s + d) :: xs.map (· + d + 7)

theorem lateBy_char (d s : Nat) (c : Byte) : HeardChar 25 (charEdges s c) (lateBy d (charEdges s c)) := by
  refine ⟨by simp [lateBy, charEdges], ?_⟩
  intro k hk
  cases k with
  | zero => simp [lateBy, charEdges, SameGap]; omega
  | succ k =>
    have hk' : k < (zeroSlots c (parityBit c)).length := by simpa [charEdges] using hk
    simp [lateBy, charEdges, SameGap, List.getD_eq_getElem?_getD, hk']
    omega

theorem lateBy_frame (d : Nat) (l : List Byte) : ∀ s p, SameGap 25 p s (p + d) (s + d) →
    HeardFrom 25 p (p + d) (frameEdges s l) ((frameEdges s l).map (lateBy d)) := by
  induction l with
  | nil => intro s p _; rfl
  | cons c l ih =>
    intro s p h
    refine ⟨h, lateBy_char d s c, ?_⟩
    have := ih (s + 1353) s (by simp only [SameGap]; omega)
    exact this

/-- Surroundings of device 1.1.2 with the group address 1/0/1; its handler runs 5 µs after an
edge. -/
def dAround : Around := ⟨fun _ => dTimeout, fun _ => 5⟩

/-- A telegram from 1.1.1 to 1/0/1. -/
def dGroup : Buf := prepareTelegram 0x1101#16 (ofList [0xBC, 0, 0, 0x08, 0x01, 0xE1, 0x00, 0x81]) 8

/-- Device A: the telegram is queued and the pause is over. -/
def dStarts : List Ev :=
  [.irq dTimeout, .queue 0x1101#16 (ofList [0xBC, 0, 0, 0x08, 0x01, 0xE1, 0x00, 0x81]) 8,
    .irq dTimeout]

theorem dStarts_about : AboutToSend (run boot dStarts).1 dGroup := by
  refine ⟨by decide +kernel, by decide +kernel, by decide +kernel, by decide +kernel, rfl⟩

instance (tol p q p' q' : Nat) : Decidable (SameGap tol p q p' q') :=
  inferInstanceAs (Decidable (_ ∧ _))

instance (tol : Nat) (es hs : List Nat) : Decidable (HeardChar tol es hs) :=
  inferInstanceAs (Decidable (_ ∧ ∀ k, k < es.length → _))

/-- B's hearing of the telegram: its clock is 1000 µs ahead of A's. -/
def dHeard : List (List Nat) :=
  (txMany dTimeout 3 (frameOf dGroup).length 0 (run boot dStarts).1.bus).1.map (lateBy 1000)

/-- A's hearing of the acknowledge. -/
def dAckHeard : List Nat := [13950, 14057, 14161, 14473, 14577, 14889]

/-- B's log, then A's. -/
example := C92_timing dStarts dGroup dStarts_about dTimeout 3 0 (by decide) dReady
  (by decide +kernel) (by decide +kernel) (by decide +kernel) (by decide +kernel) dAround
  (fun _ => by show 5 ≤ 200; decide) (by decide +kernel) (by unfold StandardData; decide +kernel)
  (fun _ => Or.inl (Or.inl (by
    show GroupDest (frameOf dGroup) ∧ (destOf (frameOf dGroup) = 0#16 ∨
      dTimeout.known (destOf (frameOf dGroup)) = true)
    unfold GroupDest destOf
    decide +kernel)))
  (fun _ => rfl)
  (Or.inl (by decide +kernel)) _ rfl dHeard
  (by
    unfold dHeard
    rw [(txMany_frame dStarts dGroup dStarts_about dTimeout 3 0 (by decide)).1]
    exact lateBy_frame 1000 (frameOf dGroup) _ _ (by simp only [SameGap]; omega))
  0 (by omega) (by decide +kernel) (by decide +kernel) _ rfl dTimeout 3 (by decide) _ rfl dAround
  (fun _ => by show 5 ≤ 200; decide) dAckHeard (by decide +kernel) (by decide +kernel)

/-- The tolerance for the distance between start bits cannot be larger: with a start bit 26 µs late
the receiver has already taken the frame as finished. -/
example :
    (hear dAround 80 0 (run boot dReady).1.bus
      ((dHeard.take 4 ++ (dHeard.drop 4).map (fun l : List Nat => l.map (· + 25))).flatten)).1.contains
        (.deliver (frameOf dGroup)) = true ∧
    (hear dAround 80 0 (run boot dReady).1.bus
      ((dHeard.take 4 ++ (dHeard.drop 4).map (fun l : List Nat => l.map (· + 26))).flatten)).1.contains
        (.deliver (frameOf dGroup)) = false := by
  decide +kernel

end Verif.Bus
