import Verif.Bus.ArbSpec
import Verif.Bus.PropsChar

/-!
# Lemmas about arbitration
-/

namespace Verif.Bus

open Verif.Knx

/-- Position of the next zero bit after position `p`; 10 if there is none. -/
def nz (c : Byte) (p : Nat) : Nat :=
  ((zeroSlots c (parityBit c)).find? fun n => decide (p < n)).getD 10

theorem nextZero_tab : ∀ c : Byte, ∀ p : Fin 10,
    nextZero 10 (withParity c.toNat) (1 <<< p.val) 104 =
      (1 <<< (nz c p.val - 1), 104 * (nz c p.val - p.val)) ∧
    p.val < nz c p.val ∧ nz c p.val ≤ 10 := by decide +kernel

theorem nz_take_tab : ∀ c : Byte, ∀ k : Fin 10,
    k.val < (zeroSlots c (parityBit c)).length →
    nz c (((zeroSlots c (parityBit c)).take k.val).getLastD 0) =
      (zeroSlots c (parityBit c)).getD k.val 0 := by decide +kernel

theorem zeroSlots_tab : ∀ c : Byte, (zeroSlots c (parityBit c)).length ≤ 9 ∧
    (∀ n ∈ zeroSlots c (parityBit c), n ≤ 9) ∧
    nz c ((zeroSlots c (parityBit c)).getLastD 0) = 10 := by decide +kernel

theorem lost_tab : ∀ c : Byte, ∀ s : Fin 10, 1 ≤ s.val →
    (charBits c (parityBit c))[s.val - 1]? = some true →
    lastBefore c s.val < s.val ∧ s.val < nz c (lastBefore c s.val) ∧
    ((zeroSlots c (parityBit c)).take (zerosBefore c s.val).length) = zerosBefore c s.val ∧
    (scanBits ((charBits c (parityBit c)).take (s.val - 1))).cur =
      (if 1 <<< (s.val - 1) = 0 then withParity c.toNat
        else withParity c.toNat &&& (1 <<< (s.val - 1) - 1)) ∧
    recount 32 ((1 <<< (s.val - 1)) >>> 1)
      (withParity c.toNat &&& (1 <<< (s.val - 1) - 1)) (10, true) =
      (11 - s.val, (scanBits ((charBits c (parityBit c)).take (s.val - 1))).parity) := by
  decide +kernel

theorem after_tab : ∀ w : Byte, ∀ s : Fin 10, 1 ≤ s.val →
    zerosAfter w s.val = zerosFrom (s.val + 1) ((charBits w (parityBit w)).drop s.val) := by
  decide +kernel

/-! ## Mid -/

/-- What sending a character leaves alone. -/
def same (b : Bus) := (tel b, txF b, b.sendTelegramLen, b.sendAck, b.nextByteIndex)

/-- The device is sending the character `c`, its last pulse was at position `p`. -/
structure Mid (b : Bus) (c : Byte) (p : Nat) : Prop where
  st : b.st = .sendBits
  cur : b.currentByte = withParity c.toNat
  mask : b.bitMask = 1 <<< nz c p
  time : b.mTime = 104 * (nz c p - p) - 1
  pwm : b.mPwm = if nz c p = 10 then 0xffff else 104 * (nz c p - p) - 35
  lt : p < 10

theorem nz_bounds (c : Byte) {p : Nat} (hp : p < 10) : p < nz c p ∧ nz c p ≤ 10 :=
  (nextZero_tab c ⟨p, hp⟩).2

theorem shl_le {n : Nat} (h : n ≤ 10) : (1 <<< n ≤ 0x200 ↔ n ≠ 10) ∧ (0x200 < 1 <<< n ↔ n = 10) := by
  have : ∀ n : Fin 11, (1 <<< n.val ≤ 0x200 ↔ n.val ≠ 10) ∧ (0x200 < 1 <<< n.val ↔ n.val = 10) := by
    decide
  exact this ⟨n, by omega⟩

/-- The registers after the timeout at position `p`. -/
theorem sending_of {b b' : Bus} {c : Byte} {p : Nat} (hs : b'.st = .sendBits)
    (hc : b.currentByte = withParity c.toNat) (hc' : b'.currentByte = b.currentByte)
    (hm : b.bitMask = 1 <<< p) (hp : p < 10)
    (e1 : b'.bitMask = (nextZero 10 b.currentByte b.bitMask bitTimeUs).1 <<< 1)
    (e2 : b'.mPwm = if 0x200 < (nextZero 10 b.currentByte b.bitMask bitTimeUs).1 <<< 1 then 0xffff
      else (nextZero 10 b.currentByte b.bitMask bitTimeUs).2 - bitPulseUs)
    (e3 : b'.mTime = (nextZero 10 b.currentByte b.bitMask bitTimeUs).2 - 1) : Mid b' c p := by
  obtain ⟨t1, t2, t3⟩ := nextZero_tab c ⟨p, hp⟩
  simp only at t1 t2 t3
  rw [hc, hm, bitTimeUs, t1] at e1 e2 e3
  have hsh : (1 <<< (nz c p - 1)) <<< 1 = 1 <<< nz c p := by
    rw [← Nat.shiftLeft_add]; congr 1; omega
  simp only [hsh] at e1 e2 e3
  refine ⟨hs, hc'.trans hc, e1, e3, ?_, hp⟩
  rw [e2]
  by_cases h : nz c p = 10
  · rw [if_pos ((shl_le t3).2.2 h), if_pos h]
  · rw [if_neg (fun hh => h ((shl_le t3).2.1 hh)), if_neg h, bitPulseUs]

theorem step_irq (b : Bus) (i : Irq) (hn : i.spike = false) :
    step ⟨b, false⟩ (.irq i) =
      (⟨(dispatch i { b with tSet := none }).1, false⟩, (dispatch i { b with tSet := none }).2) := by
  simp only [step, Bool.false_eq_true, if_false, isr_noSpike hn]

/-- Start bit. -/
theorem arb_start {b : Bus} {f : Buf} {x y : Irq} (hs : b.st = .sendStart) (ha : b.sendAck = 0#8)
    (hf : b.sendCur = some f) (hl : 30 ≤ b.mPwm) (hx : IsEdge x) (hc : b.mPwm ≤ x.capVal + 30)
    (hy : IsTimeout y) :
    ∃ b', run ⟨b, false⟩ [.irq x, .irq y] =
        (⟨b', false⟩, [.txChar (f b.nextByteIndex) (parityBit (f b.nextByteIndex))]) ∧
      Mid b' (f b.nextByteIndex) 0 ∧ b'.nextByteIndex = b.nextByteIndex + 1 ∧
      kept b' = kept b ∧ b'.sendTelegramLen = b.sendTelegramLen ∧ b'.sendAck = 0#8 := by
  obtain ⟨b1, e1, s1, k1, l1, a1, n1⟩ : ∃ b1, step ⟨b, false⟩ (.irq x) = (⟨b1, false⟩, []) ∧
      b1.st = .sendBit0 ∧ kept b1 = kept b ∧ b1.sendTelegramLen = b.sendTelegramLen ∧
      b1.sendAck = 0#8 ∧ b1.nextByteIndex = b.nextByteIndex := by
    rw [step_irq _ _ hx.2.2]
    simp only [dispatch, hs, sendStart, hx.2.1, Bool.not_false, if_true]
    rw [if_neg (by simp only [usub, if_pos hl]; omega)]
    by_cases h : x.capVal < b.mPwm
    · rw [if_pos h]; exact ⟨_, rfl, rfl, rfl, rfl, ha, rfl⟩
    · rw [if_neg h]; exact ⟨_, rfl, rfl, rfl, rfl, ha, rfl⟩
  have hf1 : b1.sendCur = some f := by
    have := congrArg (fun k => k.2.1) k1
    simpa only [kept, txF, hf] using this
  simp only [run, e1, List.nil_append, List.append_nil]
  rw [step_irq _ _ hy.2]
  simp only [dispatch, s1, sendBit0, a1, ne_eq, not_true_eq_false, if_false, hf1, n1, sendBits, hy.1,
    Bool.not_true, Bool.false_eq_true, show (1 : Nat) ≤ 0x200 by decide, if_true,
    (pulses_char _).2]
  refine ⟨_, rfl, ?_, rfl, ?_, l1, rfl⟩
  · exact sending_of (b := { b1 with currentByte := withParity (f b.nextByteIndex).toNat
                                     bitMask := 1 }) rfl rfl rfl rfl (by omega) rfl rfl rfl
  · rw [← k1]
    simp only [kept, tel, txF, hf1]

theorem arb_caps (es : List Irq) {b : Bus} {c : Byte} {p n : Nat} (h : Mid b c p)
    (hn : nz c p = n) (h9 : n ≠ 10)
    (he : ∀ e ∈ es, IsEdge e ∧ 104 * n ≤ e.capVal + 104 * p + 42 ∧ e.capVal + 104 * p < 104 * n) :
    ∃ b', run ⟨b, false⟩ (es.map .irq) = (⟨b', false⟩, []) ∧ Mid b' c p ∧ same b' = same b := by
  induction es generalizing b with
  | nil => exact ⟨b, rfl, h, rfl⟩
  | cons e es ih =>
    obtain ⟨⟨g1, g2, g3⟩, h1, h2⟩ := he e (List.mem_cons_self ..)
    obtain ⟨z1, z2⟩ := nz_bounds c h.lt
    have hpw := h.pwm
    rw [hn] at hpw z1
    rw [if_neg h9] at hpw
    have e1 : step ⟨b, false⟩ (.irq e) = (⟨{ b with tSet := none }, false⟩, []) := by
      rw [step_irq _ _ g3]
      simp only [dispatch, h.st, sendBits, g2, Bool.not_false, if_true, bitTimeUs, bitWaitUs]
      rw [if_neg (by omega), if_neg (by omega), if_neg]
      simp only [usub]
      split <;> omega
    obtain ⟨b', i1, i2, i3⟩ := ih (b := { b with tSet := none })
      ⟨h.st, h.cur, h.mask, h.time, h.pwm, h.lt⟩
      (fun x hx => he x (List.mem_cons_of_mem _ hx))
    refine ⟨b', ?_, i2, i3⟩
    simp only [List.map_cons, run, e1, i1, List.nil_append]

theorem arb_fin {b : Bus} {c : Byte} {p n : Nat} {y : Irq} (h : Mid b c p)
    (hn : nz c p = n) (h9 : n ≠ 10) (hy : IsTimeout y) :
    ∃ b', step ⟨b, false⟩ (.irq y) = (⟨b', false⟩, []) ∧ Mid b' c n ∧ same b' = same b := by
  obtain ⟨z1, z2⟩ := nz_bounds c h.lt
  have hm : b.bitMask = 1 <<< n := by rw [h.mask, hn]
  rw [hn] at z2
  rw [step_irq _ _ hy.2]
  simp only [dispatch, h.st, sendBits, hy.1, Bool.not_true, Bool.false_eq_true, if_false]
  rw [if_pos (by rw [hm]; exact (shl_le z2).1.2 h9)]
  exact ⟨_, rfl, sending_of (b := b) rfl h.cur rfl hm (by omega) rfl rfl rfl, rfl⟩

theorem arb_pulses (ps : List Pulse) (ns : List Nat) {b : Bus} {c : Byte} {p : Nat}
    (dn rest : List Nat) (hz : zeroSlots c (parityBit c) = dn ++ (ns ++ rest))
    (hp : dn.getLastD 0 = p) (h : Mid b c p) (hps : Pulses p ns ps) :
    ∃ b', run ⟨b, false⟩ (ps.flatMap (·.events)) = (⟨b', false⟩, []) ∧
      Mid b' c ((dn ++ ns).getLastD 0) ∧ same b' = same b := by
  induction ns generalizing ps b p dn with
  | nil =>
    simp only [Pulses] at hps
    subst hps
    refine ⟨b, rfl, ?_, rfl⟩
    rw [List.append_nil, hp]; exact h
  | cons n ns ih =>
    cases ps with
    | nil => exact hps.elim
    | cons q ps =>
      obtain ⟨⟨hq1, hq2⟩, hps⟩ := hps
      obtain ⟨t1, t2, _⟩ := zeroSlots_tab c
      have hlen : dn.length < (zeroSlots c (parityBit c)).length := by rw [hz]; simp
      have hn : nz c p = n := by
        have := nz_take_tab c ⟨dn.length, by omega⟩ hlen
        simp only [hz] at this
        rw [List.take_left' rfl, hp] at this
        rw [this]
        simp
      have h9 : n ≤ 9 := t2 n (by rw [hz]; simp)
      obtain ⟨b1, e1, s1, k1⟩ := arb_caps q.caps h hn (by omega) hq1
      obtain ⟨b2, e2, s2, k2⟩ := arb_fin s1 hn (by omega) hq2
      obtain ⟨b3, e3, s3, k3⟩ := ih ps (dn ++ [n]) (by rw [hz]; simp) (by simp) s2 hps
      refine ⟨b3, ?_, by rw [List.append_assoc] at s3; exact s3, by rw [k3, k2, k1]⟩
      have eq : run ⟨b, false⟩ q.events = (⟨b2, false⟩, []) := by
        simp only [Pulse.events, run_append, e1, run, e2, List.append_nil]
      rw [List.flatMap_cons, run_append, eq]
      simp only [e3, List.append_nil]

/-- The end of the stop bit. -/
theorem arb_end {b : Bus} {c : Byte} {p : Nat} {y : Irq} (h : Mid b c p) (hn : nz c p = 10)
    (hy : IsTimeout y) :
    ∃ b', step ⟨b, false⟩ (.irq y) = (⟨b', false⟩, []) ∧ same b' = same b ∧
      (if b.nextByteIndex < b.sendTelegramLen ∧ b.sendAck = 0#8 then
        b'.st = .sendStart ∧ b'.mPwm = 278 else b'.st = .sendEndTx) := by
  have hm : b.bitMask = 1 <<< 10 := by rw [h.mask, hn]
  rw [step_irq _ _ hy.2]
  simp only [dispatch, h.st, sendBits, hy.1, Bool.not_true, Bool.false_eq_true, if_false]
  rw [if_neg (by rw [hm]; decide)]
  unfold sendEndByte
  by_cases hif : b.nextByteIndex < b.sendTelegramLen ∧ b.sendAck = 0#8
  · rw [if_pos hif]
    refine ⟨_, rfl, rfl, ?_⟩
    rw [if_pos hif]
    exact ⟨rfl, rfl⟩
  · rw [if_neg hif]
    refine ⟨_, rfl, rfl, ?_⟩
    rw [if_neg hif]

/-- A character sent to its end. -/
theorem arb_char {b : Bus} {f : Buf} {x : TxIrqs} (hs : b.st = .sendStart) (ha : b.sendAck = 0#8)
    (hf : b.sendCur = some f) (hl : 30 ≤ b.mPwm) (hx : x.Of b.mPwm (f b.nextByteIndex)) :
    ∃ b', run ⟨b, false⟩ x.events =
        (⟨b', false⟩, [.txChar (f b.nextByteIndex) (parityBit (f b.nextByteIndex))]) ∧
      b'.nextByteIndex = b.nextByteIndex + 1 ∧ kept b' = kept b ∧
      b'.sendTelegramLen = b.sendTelegramLen ∧ b'.sendAck = 0#8 ∧
      (if b.nextByteIndex + 1 < b.sendTelegramLen then b'.st = .sendStart ∧ b'.mPwm = 278
        else b'.st = .sendEndTx) := by
  obtain ⟨x1, x2, x3, x4, x5⟩ := hx
  obtain ⟨b1, e1, s1, n1, k1, l1, a1⟩ := arb_start hs ha hf hl x1 x2 x3
  obtain ⟨b2, e2, s2, k2⟩ := arb_pulses x.pulses _ [] [] (by simp) rfl s1 x4
  obtain ⟨b3, e3, k3, s3⟩ := arb_end s2 (by simpa using (zeroSlots_tab (f b.nextByteIndex)).2.2) x5
  rw [show x.events = [.irq x.start, .irq x.startEnd] ++
    (x.pulses.flatMap (·.events) ++ [.irq x.fin]) from rfl]
  simp only [same, Prod.mk.injEq] at k2 k3
  obtain ⟨k21, k22, k23, k24, k25⟩ := k2
  obtain ⟨k31, k32, k33, k34, k35⟩ := k3
  refine ⟨b3, ?_, by rw [k35, k25, n1], ?_, by rw [k33, k23, l1], by rw [k34, k24, a1], ?_⟩
  · rw [run_append, e1]
    simp only [run_append, e2, run, e3, List.append_nil]
  · simp only [kept] at k1 ⊢
    rw [k31, k32, k21, k22, k1]
  · rw [k25, k23, k24, n1, l1, a1] at s3
    simpa using s3

/-- Several characters sent to their end. -/
theorem arb_chars (cs : List Byte) (xs : List TxIrqs) {b : Bus} {f : Buf} (hs : b.st = .sendStart)
    (ha : b.sendAck = 0#8) (hf : b.sendCur = some f) (hl : 30 ≤ b.mPwm)
    (hcs : cs = (List.range cs.length).map fun k => f (b.nextByteIndex + k))
    (hlen : b.nextByteIndex + cs.length ≤ b.sendTelegramLen)
    (hx : SentAll b.mPwm cs xs) :
    ∃ b', run ⟨b, false⟩ (xs.flatMap (·.events)) = (⟨b', false⟩, txChars cs) ∧
      b'.nextByteIndex = b.nextByteIndex + cs.length ∧ kept b' = kept b ∧
      b'.sendTelegramLen = b.sendTelegramLen ∧ b'.sendAck = 0#8 ∧
      (b.nextByteIndex + cs.length < b.sendTelegramLen →
        b'.st = .sendStart ∧ b'.mPwm = if cs = [] then b.mPwm else 278) ∧
      (cs ≠ [] → b.nextByteIndex + cs.length = b.sendTelegramLen → b'.st = .sendEndTx) := by
  induction cs generalizing xs b with
  | nil =>
    simp only [SentAll] at hx
    subst hx
    exact ⟨b, rfl, rfl, rfl, rfl, ha, fun _ => ⟨hs, rfl⟩, fun h => absurd rfl h⟩
  | cons c cs ih =>
    cases xs with
    | nil => exact hx.elim
    | cons x xs =>
      obtain ⟨hx1, hx2⟩ := hx
      rw [List.length_cons, List.range_succ_eq_map, List.map_cons, List.map_map] at hcs
      obtain ⟨hc, hcs'⟩ := List.cons.inj hcs
      simp only [Nat.add_zero] at hc
      subst hc
      obtain ⟨b1, e1, n1, k1, l1, a1, s1⟩ := arb_char hs ha hf hl hx1
      have hf1 : b1.sendCur = some f := by
        have := congrArg (fun k => k.2.1) k1
        simpa only [kept, txF, hf] using this
      rw [List.length_cons] at hlen
      cases cs with
      | nil =>
        simp only [SentAll] at hx2
        subst hx2
        refine ⟨b1, ?_, n1, k1, l1, a1, fun h => ?_, fun _ h => ?_⟩
        · simp [List.flatMap_cons, e1, txChars]
        · rw [if_pos (by simpa using h)] at s1
          simpa using s1
        · rw [if_neg (by simp at h; omega)] at s1
          exact s1
      | cons c2 cs =>
        rw [if_pos (by simp at hlen; omega)] at s1
        obtain ⟨b2, e2, n2, k2, l2, a2, s2, t2⟩ := ih xs s1.1 a1 hf1 (by rw [s1.2]; decide)
          (by
            rw [n1]
            refine hcs'.trans ?_
            apply List.map_congr_left
            intro k _
            simp only [Function.comp]
            congr 1; omega)
          (by rw [n1, l1]; omega) (by rw [s1.2]; exact hx2)
        refine ⟨b2, ?_, by rw [n2, n1]; simp; omega, by rw [k2, k1], by rw [l2, l1], a2,
          fun h => ?_, fun _ h => ?_⟩
        · simp [List.flatMap_cons, run_append, e1, e2, txChars]
        · have := s2 (by rw [n1, l1]; simp at h ⊢; omega)
          simpa [s1.2] using this
        · exact t2 (by simp) (by rw [n1, l1]; simp at h ⊢; omega)

/-! ## Reading on after a collision -/

/-- The scan state with another origin of time. -/
def sh (d : Int) (q : Scan) : Scan := { q with bitTime := q.bitTime + d }

theorem scanHigh_sh (d : Int) (fuel : Nat) (t : Int) (q : Scan) :
    scanHigh fuel (t + d) (sh d q) = sh d (scanHigh fuel t q) := by
  induction fuel generalizing q with
  | zero => rfl
  | succ fuel ih =>
    simp only [scanHigh]
    by_cases h : q.bitTime + bitWaitUs ≤ t ∧ q.mask ≤ 0x100
    · rw [if_pos h, if_pos (by simp only [sh]; exact ⟨by omega, h.2⟩), ← ih]
      congr 1
      simp only [sh, Scan.mk.injEq, and_true, and_self, true_and]
      omega
    · rw [if_neg h, if_neg]
      simp only [sh]
      intro hh
      exact h ⟨by omega, hh.2⟩

theorem scanEdge_sh (d t : Int) (q : Scan) : scanEdge (t + d) (sh d q) = sh d (scanEdge t q) := by
  unfold scanEdge
  by_cases h : q.bitTime + bitTimeUs - 35 ≤ t
  · rw [if_pos h, if_pos (by simp only [sh]; omega)]
    have e1 : ({ sh d q with bitTime := (sh d q).bitTime + (bitTimeUs : Nat) } : Scan) =
        sh d { q with bitTime := q.bitTime + (bitTimeUs : Nat) } := by
      simp only [sh, Scan.mk.injEq, and_true, and_self]
      omega
    have e2 : scanFuel (t + d) ((sh d q).bitTime + (bitTimeUs : Nat)) =
        scanFuel t (q.bitTime + (bitTimeUs : Nat)) := by
      simp only [scanFuel, sh]
      congr 3
      omega
    simp only [e1, e2, scanHigh_sh]
    rfl
  · rw [if_neg h, if_neg (by simp only [sh]; omega)]

/-- The edge in the receiver's own time. -/
def rebase (u s : Nat) (e : Irq) : Irq := { e with capVal := e.capVal + 104 * s - u }

theorem rebase_captured (u s : Nat) (ns : List Nat) (es : List Irq) (hs : ∀ n ∈ ns, s < n)
    (h : CapturedFrom u s ns es) :
    Captured ns (es.map (rebase u s)) ∧
    (∀ e ∈ es, u ≤ e.capVal + 104 * s ∧ e.cap = true ∧ e.tmo = false ∧ e.spike = false) := by
  induction ns generalizing es with
  | nil => simp only [CapturedFrom] at h; subst h; exact ⟨rfl, by simp⟩
  | cons n ns ih =>
    cases es with
    | nil => exact h.elim
    | cons e es =>
      obtain ⟨⟨⟨g1, g2, g3⟩, g4, g5⟩, h⟩ := h
      have hn := hs n (List.mem_cons_self ..)
      obtain ⟨i1, i2⟩ := ih es (fun x hx => hs x (List.mem_cons_of_mem _ hx)) h
      refine ⟨⟨⟨g1, g2, g3, ?_, ?_⟩, i1⟩, ?_⟩
      · simp only [rebase]; omega
      · simp only [rebase]; omega
      · intro x hx
        rcases List.mem_cons.1 hx with rfl | hx
        · exact ⟨by omega, g1, g2, g3⟩
        · exact i2 x hx

theorem foldl_rebase (u s : Nat) (es : List Irq) (q : Scan)
    (h : ∀ e ∈ es, u ≤ e.capVal + 104 * s) :
    es.foldl (fun q (e : Irq) => scanEdge e.capVal q) (sh ((u : Int) - 104 * s) q) =
      sh ((u : Int) - 104 * s)
        ((es.map (rebase u s)).foldl (fun q (e : Irq) => scanEdge e.capVal q) q) := by
  induction es generalizing q with
  | nil => rfl
  | cons e es ih =>
    simp only [List.foldl_cons, List.map_cons]
    rw [← ih _ (fun x hx => h x (List.mem_cons_of_mem _ hx)), ← scanEdge_sh]
    have := h e (List.mem_cons_self ..)
    congr 2
    simp only [rebase]
    omega

/-- The rest of a character after position `s`. -/
theorem scan_rest (u s : Nat) (w : Byte) (es : List Irq) (h1 : 1 ≤ s) (h9 : s ≤ 9)
    (hw : (charBits w (parityBit w))[s - 1]? = some false)
    (h : CapturedFrom u s (zerosAfter w s) es) :
    scanEdge ((u : Int) + 104 * (11 - s)) (es.foldl (fun q (e : Irq) => scanEdge e.capVal q)
      (sh ((u : Int) - 104 * s)
        (push (scanBits ((charBits w (parityBit w)).take (s - 1))) false))) =
      sh ((u : Int) - 104 * s) (push (scanBits (charBits w (parityBit w))) false) := by
  have hl : (charBits w (parityBit w)).length = 9 := by simp [charBits]
  have hs : ∀ n ∈ zerosAfter w s, s < n := by
    intro n hn
    simpa using (List.mem_filter.1 hn).2
  obtain ⟨c1, c2⟩ := rebase_captured u s _ es hs h
  rw [foldl_rebase u s es _ (fun e he => (c2 e he).1)]
  rw [after_tab w ⟨s, by omega⟩ h1] at c1
  simp only at c1
  generalize hq : push (scanBits ((charBits w (parityBit w)).take (s - 1))) false = q
  have hq0 : q = scanBits ((charBits w (parityBit w)).take (s - 1) ++ [false]) := by
    rw [← hq, scanBits, scanBits, List.foldl_append]; rfl
  have hlen : ((charBits w (parityBit w)).take (s - 1) ++ [false]).length = s := by
    simp [hl]; omega
  have hqt : q.bitTime = 104 * (s : Int) := by
    rw [hq0, scanBits, foldl_push_bitTime, hlen]; simp [scan0]
  have hqm : q.mask = 2 ^ s := by
    rw [hq0, scanBits, foldl_push_mask, hlen]; simp [scan0]
  obtain ⟨j, l', f1, f2⟩ := scan_edges (es.map (rebase u s)) s _ q hqt hqm
    (by simp [hl]; omega) c1
  rw [f1]
  have hlen2 : s + l'.length + j = 9 := by
    have := congrArg List.length f2
    simp [hl] at this
    omega
  rw [show (u : Int) + 104 * (11 - s) = 1144 + ((u : Int) - 104 * s) by omega, scanEdge_sh,
    scanEdge_end j _ (s + l'.length) (by omega) (by rw [foldl_push_bitTime, hqt]; omega)
      (by rw [foldl_push_mask, hqm, Nat.pow_add])]
  congr 2
  have hfull : charBits w (parityBit w) =
      (charBits w (parityBit w)).take (s - 1) ++ false :: (charBits w (parityBit w)).drop s := by
    have h2 : (charBits w (parityBit w)).drop (s - 1) =
        false :: (charBits w (parityBit w)).drop s := by
      have hlt : s - 1 < (charBits w (parityBit w)).length := by omega
      rw [List.drop_eq_getElem_cons hlt]
      rw [List.getElem?_eq_getElem hlt] at hw
      rw [Option.some.inj hw, show s - 1 + 1 = s by omega]
    rw [← h2, List.take_append_drop]
  rw [pushOnes_eq, ← List.foldl_append, ← f2, hq0]
  conv => rhs; rw [hfull]
  simp only [scanBits, List.foldl_append, List.foldl_cons, List.foldl_nil]

/-- Edges while receiving, for any end of the character. -/
theorem recv_edges' (es : List Irq) {b : Bus} (hs : b.st = .recvBits)
    (he : ∀ e ∈ es, e.cap = true ∧ e.tmo = false ∧ e.spike = false) :
    ∃ b', run ⟨b, false⟩ (es.map .irq) = (⟨b', false⟩, []) ∧ b'.st = .recvBits ∧
      b'.mTime = b.mTime ∧ b'.mPwm = b.mPwm ∧
      scanOf b' = es.foldl (fun q (e : Irq) => scanEdge e.capVal q) (scanOf b) ∧
      kept b' = kept b := by
  induction es generalizing b with
  | nil => exact ⟨b, rfl, hs, rfl, rfl, rfl, rfl⟩
  | cons e es ih =>
    obtain ⟨h1, h2, h3⟩ := he e (List.mem_cons_self ..)
    have hstep : ∃ b', step ⟨b, false⟩ (.irq e) = (⟨b', false⟩, []) ∧ b'.st = .recvBits ∧
        b'.mTime = b.mTime ∧ b'.mPwm = b.mPwm ∧ scanOf b' = scanEdge e.capVal (scanOf b) ∧
        kept b' = kept b := by
      rw [step_irq _ _ h3]
      simp only [dispatch, hs, recvBits, h2, Bool.false_eq_true, if_false]
      split
      · refine ⟨_, rfl, ?_⟩; exact ⟨rfl, rfl, rfl, rfl, rfl⟩
      · refine ⟨_, rfl, ?_⟩; exact ⟨rfl, rfl, rfl, rfl, rfl⟩
    obtain ⟨b1, e1, e2, e3, e4, e5, e6⟩ := hstep
    obtain ⟨b2, i1, i2, i3, i4, i5, i6⟩ := ih e2 (fun x hx => he x (List.mem_cons_of_mem _ hx))
    refine ⟨b2, ?_, i2, i3.trans e3, i4.trans e4, ?_, i6.trans e6⟩
    · simp only [List.map_cons, run, e1, i1, List.nil_append]
    · rw [i5, e5, List.foldl_cons]

theorem recv_fin' {b : Bus} {i : Irq} (hs : b.st = .recvBits) (hi : IsTimeout i) :
    ∃ b', step ⟨b, false⟩ (.irq i) = (⟨b', false⟩,
        [.rxChar (BitVec.ofNat 8 ((scanEdge ((b.mTime : Int) + 1) (scanOf b)).cur &&& 0xff))
          (scanEdge ((b.mTime : Int) + 1) (scanOf b)).parity]) ∧
      b'.st = .waitStart ∧ b'.mPwm = b.mPwm ∧ kept b' = kept b := by
  rw [step_irq _ _ hi.2]
  simp only [dispatch, hs, recvBits, hi.1, if_true, endOfChar]
  split <;> exact ⟨_, rfl, rfl, rfl, rfl⟩

/-- What a lost arbitration changes of the telegram to be sent: the number of collisions. -/
def lostOf (k : (Buf × Nat) × (Option Buf × Bool × Bool × Nat × Nat × Byte × Nat × Nat)) :
    (Buf × Nat) × (Option Buf × Bool × Bool × Nat × Nat × Byte × Nat × Nat) :=
  (k.1, k.2.1, k.2.2.1, k.2.2.2.1, k.2.2.2.2.1, k.2.2.2.2.2.1, k.2.2.2.2.2.2.1 + 1#8,
    k.2.2.2.2.2.2.2)

theorem usub_le {a b : Nat} (h : b ≤ a) : usub a b = a - b := if_pos h

/-- The edge that overrules us. -/
theorem arb_collide {b : Bus} {c : Byte} {f : Buf} {x : Irq} {s : Nat} (h1 : 1 ≤ s) (h9 : s ≤ 9)
    (h : Mid b c (lastBefore c s)) (hc : (charBits c (parityBit c))[s - 1]? = some true)
    (ha : b.sendAck = 0#8) (hf : b.sendCur = some f)
    (hx : IsEdge x) (hlo : 104 * s ≤ x.capVal + 104 * lastBefore c s + 42)
    (hhi : x.capVal + 104 * lastBefore c s + 3 ≤ 104 * s) :
    ∃ b', step ⟨b, false⟩ (.irq x) = (⟨b', false⟩, .collision :: .rxBegin ::
        (bytes f (b.nextByteIndex - 1)).map fun x => Out.rxChar x true) ∧
      b'.st = .recvBits ∧ b'.mTime + 1 = x.capVal + 104 * (11 - s) ∧ b'.mPwm = 0xffff ∧
      scanOf b' = sh ((x.capVal : Int) - 104 * s)
        (push (scanBits ((charBits c (parityBit c)).take (s - 1))) false) ∧
      kept b' = lostOf (kept b) := by
  obtain ⟨t1, t2, _, t4, t5⟩ := lost_tab c ⟨s, by omega⟩ h1 hc
  simp only at t1 t2 t4 t5
  obtain ⟨z1, z2⟩ := nz_bounds c h.lt
  have hl : (charBits c (parityBit c)).length = 9 := by simp [charBits]
  have hsb : (scanBits ((charBits c (parityBit c)).take (s - 1))).mask = 1 <<< (s - 1) ∧
      (scanBits ((charBits c (parityBit c)).take (s - 1))).bitTime = 104 * ((s : Int) - 1) := by
    refine ⟨?_, ?_⟩
    · rw [scanBits, foldl_push_mask, List.length_take, hl, Nat.min_eq_left (by omega),
        Nat.shiftLeft_eq]
      rfl
    · rw [scanBits, foldl_push_bitTime, List.length_take, hl, Nat.min_eq_left (by omega)]
      simp only [scan0]
      omega
  have hmk := h.mask
  have htm := h.time
  have hpw := h.pwm
  have hst := h.st
  have hcu := h.cur
  clear h
  generalize lastBefore c s = p at *
  generalize nz c p = n at *
  generalize scanBits ((charBits c (parityBit c)).take (s - 1)) = q at *
  have hp1 : (1 <<< (s - 1) : Nat) ≠ 0 := by
    rw [Nat.shiftLeft_eq]; have := Nat.two_pow_pos (s - 1); omega
  rw [if_neg hp1] at t4
  have hcnt : usub (usub b.mTime x.capVal) 2 / 104 = n - s := by
    rw [htm, usub_le (a := 104 * (n - p) - 1) (by omega), usub_le (by omega)]
    omega
  have hsh : (1 <<< n : Nat) >>> (n - s + 1) = 1 <<< (s - 1) := by
    have : n = (s - 1) + (n - s + 1) := by omega
    conv => lhs; rw [this]
    rw [Nat.shiftLeft_add, show s - 1 + (n - s + 1) - s + 1 = n - s + 1 by omega]
    rw [Nat.shiftLeft_shiftRight]
  have hwin : x.capVal < usub b.mPwm 7 := by
    rw [hpw]
    by_cases hn : n = 10
    · rw [if_pos hn, usub_le (by omega)]; omega
    · rw [if_neg hn, usub_le (by omega)]; omega
  have hq : q = ⟨104 * ((s : Int) - 1), 1 <<< (s - 1),
      withParity c.toNat &&& (1 <<< (s - 1) - 1), q.parity⟩ := by
    obtain ⟨q1, q2, q3, q4⟩ := q
    simp only at hsb t4
    rw [hsb.1, hsb.2, t4]
  have hscan : scanEdge x.capVal ⟨(x.capVal : Int) - 104, 1 <<< (s - 1),
      withParity c.toNat &&& (1 <<< (s - 1) - 1), q.parity⟩ =
      sh ((x.capVal : Int) - 104 * s) (push q false) := by
    have e1 : (⟨(x.capVal : Int) - 104, 1 <<< (s - 1),
        withParity c.toNat &&& (1 <<< (s - 1) - 1), q.parity⟩ : Scan) =
        sh ((x.capVal : Int) - 104 * s) q := by
      rw [hq]
      simp only [sh, Scan.mk.injEq, and_true, and_self]
      omega
    have e2 : scanEdge (104 * (s : Int)) q = push q false :=
      scanEdge_zero 0 _ q (by omega) (by rw [hsb.2]; omega) (by rw [hsb.2]; omega)
    rw [e1, ← e2, ← scanEdge_sh]
    congr 1
    omega
  rw [step_irq _ _ hx.2.2]
  simp only [dispatch, hst, sendBits, hx.2.1, Bool.not_false, if_true, bitTimeUs, bitWaitUs]
  rw [if_neg (by omega), if_neg (by omega), if_pos hwin]
  simp only [switchToRx, encounteredCollision, ha, if_true, ne_eq, not_true_eq_false, if_false, hf,
    bitTimeUs, hcnt, show n - s + 1 < 32 by omega, hmk, hsh, hp1, hcu, t5, recvBits, hx.2.1,
    Bool.false_eq_true, scanOf]
  split
  · refine ⟨_, Prod.ext rfl (by simp), ?_⟩
    refine ⟨rfl, ?_, rfl, hscan, ?_⟩
    · simp only; omega
    · simp only [kept, tel, txF, lostOf, hf]
  · refine ⟨_, Prod.ext rfl (by simp), ?_⟩
    refine ⟨rfl, ?_, rfl, hscan, ?_⟩
    · simp only; omega
    · simp only [kept, tel, txF, lostOf, hf]

/-! ## The timer before a start bit -/

/-- Before a start bit the pulse is programmed 30 µs or more ahead and 35 µs long. -/
def Lead (b : Bus) : Prop := b.st = .sendStart → 30 ≤ b.mPwm ∧ b.mTime = b.mPwm + 34

theorem lead_ne {b : Bus} (h : b.st ≠ .sendStart) : Lead b := fun x => absurd x h

theorem waitStart_lead (i : Irq) (b : Bus) : Lead (waitStart i b).1 := by
  unfold waitStart
  cases i.cap
  · simp only [Bool.not_false, if_true]
    apply lead_ne
    rcases handleTelegram_st i (if ({ b with mTime := 0xfffe, tInt := true, tReset := true } : Bus).checksum
      ≠ 0#8 then { { b with mTime := 0xfffe, tInt := true, tReset := true } with
        rxError := b.rxError ||| 16#16 } else { b with mTime := 0xfffe, tInt := true, tReset := true })
      ((if ({ b with mTime := 0xfffe, tInt := true, tReset := true } : Bus).checksum
      ≠ 0#8 then { { b with mTime := 0xfffe, tInt := true, tReset := true } with
        rxError := b.rxError ||| 16#16 } else { b with mTime := 0xfffe, tInt := true, tReset := true }).valid
        && (if ({ b with mTime := 0xfffe, tInt := true, tReset := true } : Bus).checksum
      ≠ 0#8 then { { b with mTime := 0xfffe, tInt := true, tReset := true } with
        rxError := b.rxError ||| 16#16 }
        else { b with mTime := 0xfffe, tInt := true, tReset := true }).checksum == 0#8) with h | h
    · rw [h]; decide
    · rw [h]; decide
  · exact lead_ne (by simp)

theorem initRx_lead (i : Irq) (b : Bus) : Lead (initRx i b).1 := waitStart_lead i _

theorem startDelay_ge (i : Irq) (b : Bus) (t : Buf) : 104 ≤ startDelay i b t := by
  unfold startDelay
  have hb : 104 ≤ (if t 0 &&& 0x20#8 ≠ 0#8 ∧ t 0 &&& 0x04#8 ≠ 0#8 then preSend + delayBits 3
      else preSend) := by
    split <;> simp [preSend, delayBits, bitTimeUs]
  simp only
  split
  · omega
  · exact hb

theorem wait50_lead (i : Irq) (b : Bus) : Lead (wait50 i b).1 := by
  unfold wait50
  cases i.cap
  · simp only [Bool.false_eq_true, if_false]
    split
    · intro _
      have := startDelay_ge i
      refine ⟨?_, ?_⟩
      · simp only
        exact Nat.le_trans (by decide) (this _ _)
      · simp only [bitPulseUs]
    · exact lead_ne (by simp [idleState])
  · exact initRx_lead i b

theorem recvBits_lead (i : Irq) (b : Bus) (h : b.st = .recvBits) : Lead (recvBits i b).1 := by
  apply lead_ne
  unfold recvBits endOfChar
  cases i.tmo
  · simp only [Bool.false_eq_true, if_false]
    split <;> (simp only [h]; decide)
  · simp

theorem sendEndByte_lead (b : Bus) : Lead (sendEndByte b).1 := by
  unfold sendEndByte
  split
  · intro _; exact ⟨(by decide : (30 : Nat) ≤ 278), rfl⟩
  · exact lead_ne (by simp)

theorem sendBits_lead (i : Irq) (b : Bus) (h : b.st = .sendBits) : Lead (sendBits i b).1 := by
  unfold sendBits
  cases i.tmo
  · simp only [Bool.not_false, if_true]
    split
    · exact lead_ne (by rw [h]; decide)
    · split
      · exact lead_ne (by simp [initState])
      · split
        · exact recvBits_lead i _ rfl
        · exact lead_ne (by rw [h]; decide)
  · simp only [Bool.not_true, Bool.false_eq_true, if_false]
    split
    · exact lead_ne (by simp [h])
    · exact sendEndByte_lead _

theorem dispatch_lead (i : Irq) (b : Bus) (h : Lead b) : Lead (dispatch i b).1 := by
  unfold dispatch
  cases hs : b.st <;> simp only [hs]
  case init =>
    unfold initSt
    cases i.tmo
    · exact lead_ne (by simp [hs])
    · simp only [Bool.not_true, Bool.false_eq_true, if_false]
      split
      · exact wait50_lead i _
      · exact lead_ne (by simp)
  case idle =>
    split
    · exact initRx_lead i b
    · exact h
  case initRx => exact initRx_lead i b
  case waitStart => exact waitStart_lead i b
  case recvBits => exact recvBits_lead i b hs
  case waitAckTx =>
    unfold waitAckTx
    split
    · exact initRx_lead i _
    · intro _; exact ⟨(by decide : (30 : Nat) ≤ 104), rfl⟩
  case wait50 => exact wait50_lead i b
  case sendStart =>
    unfold sendStart
    cases i.tmo
    · simp only [Bool.not_false, if_true]
      split
      · exact initRx_lead i _
      · exact lead_ne (by simp)
    · simp only [Bool.not_true, Bool.false_eq_true, if_false]
      unfold sendBit0
      exact sendBits_lead i _ rfl
  case sendBit0 =>
    unfold sendBit0
    exact sendBits_lead i _ rfl
  case sendBits => exact sendBits_lead i b hs
  case sendEndByte => exact sendEndByte_lead b
  case sendEndTx =>
    unfold sendEndTx
    split
    · exact lead_ne (by simp)
    · apply lead_ne
      simp only
      split
      · split <;> simp
      · simp
  case ackWindow => exact lead_ne (by simp [ackWindow])
  case waitAck =>
    unfold waitAck
    split
    · exact initRx_lead i b
    · exact lead_ne (by simp)

theorem step_lead (s : Sys) (e : Ev) (h : Lead s.bus) : Lead (step s e).1.bus := by
  cases e <;> simp only [step]
  case irq i =>
    split
    · exact h
    · unfold isr
      split
      · exact h
      · exact dispatch_lead i _ h
  case queue own t len => split <;> exact h
  case kick =>
    split
    · exact lead_ne (by simp [startSendingImmediately])
    · exact h
  case discard => exact h
  case pause w =>
    split
    · exact lead_ne (by simp)
    · exact h
  case resume =>
    split
    · exact lead_ne (by simp [initState])
    · exact h
  case maxRetries => exact h
  case maxBusyRetries => exact h

theorem run_lead (s : Sys) (es : List Ev) (h : Lead s.bus) : Lead (run s es).1.bus := by
  induction es generalizing s with
  | nil => exact h
  | cons e es ih => exact ih _ (step_lead s e h)

theorem boot_lead (es : List Ev) : Lead (run boot es).1.bus :=
  run_lead boot es (lead_ne (by decide))

/-! ## What the device itself puts on the line -/

theorem drive_edges (es : List Irq) (he : ∀ e ∈ es, e.tmo = false) (t : Nat) (s : Sys)
    (tail : List Ev) :
    drive t s (es.map .irq ++ tail) = drive t (run s (es.map .irq)).1 tail := by
  induction es generalizing s with
  | nil => rfl
  | cons e es ih =>
    simp only [List.map_cons, List.cons_append, drive, run,
      he e (List.mem_cons_self ..), Bool.false_eq_true, if_false]
    exact ih (fun x hx => he x (List.mem_cons_of_mem _ hx)) _

theorem drive_pulses (ps : List Pulse) (ns : List Nat) {b : Bus} {c : Byte} {p : Nat}
    (dn rest : List Nat) (hz : zeroSlots c (parityBit c) = dn ++ (ns ++ rest))
    (hp : dn.getLastD 0 = p) (h : Mid b c p) (hps : Pulses p ns ps) (t : Nat) (tail : List Ev) :
    drive (t + 35 + 104 * p) ⟨b, false⟩ (ps.flatMap (·.events) ++ tail) =
      ns.map (fun n => t + 104 * n) ++
      drive (t + 35 + 104 * (dn ++ ns).getLastD 0) (run ⟨b, false⟩ (ps.flatMap (·.events))).1
        tail := by
  induction ns generalizing ps b p dn with
  | nil =>
    simp only [Pulses] at hps
    subst hps
    rw [List.append_nil, hp]
    rfl
  | cons n ns ih =>
    cases ps with
    | nil => exact hps.elim
    | cons q ps =>
      obtain ⟨⟨hq1, hq2⟩, hps⟩ := hps
      obtain ⟨t1, t2, _⟩ := zeroSlots_tab c
      have hlen : dn.length < (zeroSlots c (parityBit c)).length := by rw [hz]; simp
      have hn : nz c p = n := by
        have := nz_take_tab c ⟨dn.length, by omega⟩ hlen
        simp only [hz] at this
        rw [List.take_left' rfl, hp] at this
        rw [this]
        simp
      have h9 : n ≤ 9 := t2 n (by rw [hz]; simp)
      obtain ⟨b1, e1, s1, k1⟩ := arb_caps q.caps h hn (by omega) hq1
      obtain ⟨b2, e2, s2, k2⟩ := arb_fin s1 hn (by omega) hq2
      have eq : run ⟨b, false⟩ q.events = (⟨b2, false⟩, []) := by
        simp only [Pulse.events, run_append, e1, run, e2, List.append_nil]
      obtain ⟨z1, _⟩ := nz_bounds c h.lt
      rw [hn] at z1
      have i1 := ih ps (dn ++ [n]) (by rw [hz]; simp) (by simp) s2 hps
      rw [List.flatMap_cons, run_append, eq]
      have e3 : q.events ++ ps.flatMap (·.events) ++ tail =
          q.caps.map .irq ++ (.irq q.fin :: (ps.flatMap (·.events) ++ tail)) := by
        simp [Pulse.events]
      have ht := s1.time
      have hw := s1.pwm
      rw [hn] at ht hw
      rw [if_neg (by omega)] at hw
      rw [e3, drive_edges _ (fun e he => (hq1 e he).1.2.1), e1]
      simp only [drive, hq2.1, if_true, e2]
      rw [if_pos (by omega), hw, ht,
        show t + 35 + 104 * p + (104 * (n - p) - 1) + 1 = t + 35 + 104 * n by omega, i1,
        show t + 35 + 104 * p + (104 * (n - p) - 35) = t + 104 * n by omega]
      simp

theorem drive_char {b : Bus} {f : Buf} {x : TxIrqs} (hs : b.st = .sendStart) (ha : b.sendAck = 0#8)
    (hf : b.sendCur = some f) (hl : 30 ≤ b.mPwm) (hm : b.mTime = b.mPwm + 34)
    (hx : x.Of b.mPwm (f b.nextByteIndex)) (t : Nat) :
    drive t ⟨b, false⟩ x.events =
      (if x.start.capVal < b.mPwm then
        if x.start.now + 1 ≤ x.start.capVal + 34 then [t + (x.start.now + 1)] else []
       else [t + b.mPwm]) ++
      (zeroSlots (f b.nextByteIndex) (parityBit (f b.nextByteIndex))).map fun n =>
        t + min x.start.capVal b.mPwm + 104 * n := by
  obtain ⟨x1, x2, x3, x4, x5⟩ := hx
  obtain ⟨b1, e1, s1, n1, k1, l1, a1⟩ := arb_start hs ha hf hl x1 x2 x3
  obtain ⟨b2, e2, s2, k2⟩ := arb_pulses x.pulses _ [] [] (by simp) rfl s1 x4
  have hz := (zeroSlots_tab (f b.nextByteIndex)).2.2
  simp only [List.nil_append] at s2
  generalize f b.nextByteIndex = c at *
  obtain ⟨bs, f1, f2, f3⟩ : ∃ bs, step ⟨b, false⟩ (.irq x.start) = (⟨bs, false⟩, []) ∧
      bs.mPwm = (if x.start.capVal < b.mPwm then x.start.now + 1 else b.mPwm) ∧
      bs.mTime = (if x.start.capVal < b.mPwm then x.start.capVal + 34 else b.mTime) := by
    rw [step_irq _ _ x1.2.2]
    simp only [dispatch, hs, sendStart, x1.2.1, Bool.not_false, if_true]
    rw [if_neg (by simp only [usub, if_pos hl]; omega)]
    by_cases h : x.start.capVal < b.mPwm
    · simp only [if_pos h]; exact ⟨_, rfl, rfl, rfl⟩
    · simp only [if_neg h]; exact ⟨_, rfl, rfl, rfl⟩
  simp only [run, f1, List.nil_append, List.append_nil] at e1
  have e1' : (step ⟨bs, false⟩ (.irq x.startEnd)).1 = ⟨b1, false⟩ := by rw [Prod.ext_iff] at e1; exact e1.1
  have htail : drive (t + min x.start.capVal b.mPwm + 35 + 104 * 0) ⟨b1, false⟩
      (x.pulses.flatMap (·.events) ++ [.irq x.fin]) =
      (zeroSlots c (parityBit c)).map fun n => t + min x.start.capVal b.mPwm + 104 * n := by
    rw [drive_pulses (p := 0) x.pulses _ [] [] (by simp) rfl s1 x4, e2]
    simp only [List.nil_append, drive, x5.1, if_true]
    have ht := s2.time
    have hw := s2.pwm
    rw [hz] at ht hw
    rw [if_pos rfl] at hw
    rw [if_neg (by omega)]
    simp
  simp only [TxIrqs.events, drive, x1.2.1, Bool.false_eq_true, if_false, f1, x3.1, if_true, e1']
  rw [show t + bs.mTime + 1 = t + min x.start.capVal b.mPwm + 35 + 104 * 0 by
    rw [f3]; split <;> omega, htail]
  congr 1
  rw [f2, f3]
  by_cases h : x.start.capVal < b.mPwm
  · simp only [if_pos h]
  · simp only [if_neg h]
    rw [if_pos (by omega)]

/-- The device only listens. -/
def Quiet (b : Bus) : Prop :=
  b.mPwm = 0xffff ∧ b.mTime < 0xffff ∧ (b.st = .recvBits ∨ b.st = .waitStart)

theorem quiet_irq {b : Bus} {i : Irq} (h : Quiet b) (hn : i.spike = false)
    (hc : b.st = .waitStart → i.cap = true) :
    ∃ b', (step ⟨b, false⟩ (.irq i)).1 = ⟨b', false⟩ ∧ Quiet b' := by
  obtain ⟨h1, h2, h3⟩ := h
  rw [step_irq _ _ hn]
  rcases h3 with h | h
  · simp only [dispatch, h, recvBits]
    cases i.tmo
    · simp only [Bool.false_eq_true, if_false]
      split <;> exact ⟨_, rfl, h1, h2, Or.inl rfl⟩
    · simp only [if_true, endOfChar]
      split <;> exact ⟨_, rfl, h1, (by decide : maxInterChar - 1 < 0xffff), Or.inr rfl⟩
  · simp only [dispatch, h, waitStart, hc h, Bool.not_true, Bool.false_eq_true, if_false]
    exact ⟨_, rfl, h1, (by decide : (1143 : Nat) < 0xffff), Or.inl rfl⟩

end Verif.Bus
