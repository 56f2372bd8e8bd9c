import Verif.Bus.AccessInv
import Verif.Bus.RxLemmas

/-!
# C93: a device waits for its turn

Statement vocabulary: `AccessSpec.lean`.
-/

namespace Verif.Bus

open Verif.Knx

/-! ## When a transmission begins -/

/-- The log entries that begin a transmission. -/
def Begins (o : Out) : Prop := o = .txBegin ∨ o = .ackBegin

theorem handle_no_begin (i : Irq) (b : Bus) (v : Bool) {o : Out} (ho : Begins o) :
    o ∉ (handleTelegram i b v).2 := by
  intro h
  rw [handleTelegram_outs] at h
  have fin : ∀ c : Bus, ∀ m, o ∉ (processAck c m).2.1 := by
    intro c m hc
    rcases processAck_outs c m with e | ⟨ok, e⟩ <;> rw [e] at hc <;>
      rcases ho with rfl | rfl <;> simp at hc
  split at h
  · split at h <;> rcases ho with rfl | rfl <;> simp at h
  · split at h
    · exact fin _ _ h
    · simp at h

theorem waitStart_no_begin (i : Irq) (b : Bus) {o : Out} (ho : Begins o) :
    o ∉ (waitStart i b).2 := by
  unfold waitStart
  simp only []
  split
  · exact handle_no_begin i _ _ ho
  · simp

theorem initRx_no_begin (i : Irq) (b : Bus) {o : Out} (ho : Begins o) : o ∉ (initRx i b).2 := by
  intro h
  unfold initRx at h
  simp only [List.mem_cons] at h
  rcases h with h | h
  · rcases ho with rfl | rfl <;> cases h
  · exact waitStart_no_begin i _ ho h

theorem coll_no_begin (b : Bus) {o : Out} (ho : Begins o) : o ∉ (encounteredCollision b).2 := by
  intro h
  rcases encounteredCollision_outs b with e | e <;> rw [e] at h <;>
    rcases ho with rfl | rfl <;> simp at h

theorem recvBits_no_begin (i : Irq) (b : Bus) {o : Out} (ho : Begins o) :
    o ∉ (recvBits i b).2 := by
  intro h
  rcases recvBits_outs i b with e | ⟨c, p, e⟩ <;> rw [e] at h <;>
    rcases ho with rfl | rfl <;> simp at h

theorem sendBits_no_begin (i : Irq) (b : Bus) {o : Out} (ho : Begins o) :
    o ∉ (sendBits i b).2 := by
  intro h
  unfold sendBits at h
  split at h
  · split at h
    · simp at h
    · split at h
      · exact coll_no_begin b ho h
      · split at h
        · simp only [List.mem_append] at h
          rcases h with h | h
          · obtain ⟨cs, hcs⟩ := switchToRx_outs i b
            rw [hcs, List.mem_append] at h
            rcases h with h | h
            · exact coll_no_begin b ho h
            · rcases ho with rfl | rfl <;> simp [rxChars] at h
          · exact recvBits_no_begin i _ ho h
        · simp at h
  · split at h
    · simp at h
    · unfold sendEndByte at h
      split at h <;> simp at h

theorem sendBit0_no_begin (i : Irq) (b : Bus) {o : Out} (ho : Begins o) :
    o ∉ (sendBit0 i b).2 := by
  intro h
  unfold sendBit0 at h
  simp only [List.mem_cons] at h
  rcases h with h | h
  · rcases ho with rfl | rfl <;> cases h
  · exact sendBits_no_begin i _ ho h

theorem delay_least (i : Irq) (b : Bus) (t : Buf) :
    104 ≤ startDelay i b t ∧
    (t 0 &&& 0x20#8 ≠ 0#8 → t 0 &&& 0x04#8 ≠ 0#8 → 417 ≤ startDelay i b t) := by
  have e1 : preSend = 104 := by decide
  have e2 : preSend + delayBits 3 = 417 := by decide
  unfold startDelay
  simp only []
  constructor
  · split <;> split <;> omega
  · intro h1 h2
    have e : (if t 0 &&& 0x20#8 ≠ 0#8 ∧ t 0 &&& 0x04#8 ≠ 0#8 then preSend + delayBits 3
        else preSend) = 417 := by rw [if_pos ⟨h1, h2⟩]; exact e2
    split <;> omega

/-- What the handler does when a telegram begins. -/
theorem wait50_begin (i : Irq) (b : Bus) {o : Out} (ho : Begins o) (h : o ∈ (wait50 i b).2) :
    o = .txBegin ∧ i.cap = false ∧ (wait50 i b).1.st = .sendStart ∧
    (wait50 i b).1.tSet = b.tSet ∧ 104 ≤ (wait50 i b).1.mPwm ∧
    ∀ t, (wait50 i b).1.sendCur = some t → t 0 &&& 0x20#8 ≠ 0#8 → t 0 &&& 0x04#8 ≠ 0#8 →
      417 ≤ (wait50 i b).1.mPwm := by
  unfold wait50 at h ⊢
  by_cases hc : i.cap = true
  · rw [if_pos hc] at h
    exact absurd h (initRx_no_begin i b ho)
  · rw [if_neg hc] at h ⊢
    simp only [] at h ⊢
    have h3 : (if retriesExhausted b = true then
        finishSendingTelegram { b with txError := b.txError ||| 128#16 }
        else (b, [])).1.tSet = b.tSet ∧
        o ∉ (if retriesExhausted b = true then
        finishSendingTelegram { b with txError := b.txError ||| 128#16 } else (b, [])).2 := by
      split
      · constructor
        · unfold finishSendingTelegram; split <;> rfl
        · rcases finish_outs_cases { b with txError := b.txError ||| 128#16 } with e | ⟨ok, e⟩ <;>
            rw [e] <;> rcases ho with rfl | rfl <;> simp
      · exact ⟨rfl, by simp⟩
    revert h3 h
    generalize (if retriesExhausted b = true then
        finishSendingTelegram { b with txError := b.txError ||| 128#16 } else (b, [])) = r
    obtain ⟨c, q⟩ := r
    simp only []
    rintro h ⟨h3, h4⟩
    split at h
    · next t ht =>
      simp only [List.mem_append, List.mem_singleton] at h
      rcases h with h | h
      · exact absurd h h4
      · refine ⟨h, by simpa using hc, rfl, h3, (delay_least _ _ _).1, ?_⟩
        intro u hu h1 h2
        simp only [Option.some.injEq] at hu
        subst hu
        exact (delay_least _ _ _).2 h1 h2
    · exact absurd h h4

theorem dispatch_begin (i : Irq) (b : Bus) {o : Out} (ho : Begins o) (h : o ∈ (dispatch i b).2) :
    i.cap = false ∧ (b.st = .wait50 ∧ (dispatch i b) = wait50 i b ∧ o = .txBegin ∨
      b.st = .waitAckTx ∧ (dispatch i b) = waitAckTx i b ∧ o = .ackBegin) := by
  unfold dispatch at h ⊢
  cases hs : b.st <;> simp only [hs] at h ⊢
  case init =>
    unfold initSt at h
    split at h
    · simp at h
    · simp only at h
      split at h
      · next hc =>
        unfold wait50 at h
        rw [if_pos hc] at h
        exact absurd h (initRx_no_begin i _ ho)
      · simp at h
  case idle =>
    split at h
    · exact absurd h (initRx_no_begin i _ ho)
    · simp at h
  case initRx => exact absurd h (initRx_no_begin i _ ho)
  case waitStart => exact absurd h (waitStart_no_begin i _ ho)
  case recvBits => exact absurd h (recvBits_no_begin i _ ho)
  case waitAckTx =>
    unfold waitAckTx at h
    split at h
    · exact absurd h (initRx_no_begin i _ ho)
    · next hc =>
      simp only [List.mem_singleton] at h
      exact ⟨by simpa using hc, Or.inr ⟨trivial, trivial, h⟩⟩
  case wait50 =>
    have := wait50_begin i b ho h
    exact ⟨this.2.1, Or.inl ⟨trivial, trivial, this.1⟩⟩
  case sendStart =>
    unfold sendStart at h
    split at h
    · split at h
      · simp only [List.mem_append] at h
        rcases h with h | h
        · split at h
          · exact absurd h (coll_no_begin b ho)
          · simp at h
        · exact absurd h (initRx_no_begin i _ ho)
      · simp at h
    · exact absurd h (sendBit0_no_begin i _ ho)
  case sendBit0 => exact absurd h (sendBit0_no_begin i _ ho)
  case sendBits => exact absurd h (sendBits_no_begin i _ ho)
  case sendEndByte =>
    unfold sendEndByte at h
    split at h <;> simp at h
  case sendEndTx =>
    unfold sendEndTx at h
    split at h <;> rcases ho with rfl | rfl <;> simp at h
  case ackWindow => simp [ackWindow] at h
  case waitAck =>
    unfold waitAck at h
    split at h
    · exact absurd h (initRx_no_begin i _ ho)
    · simp at h

/-! ## The invariant -/

/-- Everything the proof keeps about the device and its timer. -/
structure Turn (lat : Nat) (T : TSys) : Prop where
  zn : T.z ≤ T.now
  ln : T.last ≤ T.now
  pace : T.sys.paused = false → Pace T.sys.bus
  armed : T.sys.paused = false → Armed T.sys.bus
  fit : T.sys.paused = false → fits (lat + 1) T.z T.now T.last T.sys.bus
  notIdle : T.sys.paused = true → T.sys.bus.st ≠ .idle

theorem turn_boot (lat t : Nat) : Turn lat (tboot t) := by
  refine ⟨Nat.le_refl _, Nat.le_refl _, fun _ => rfl, fun _ => armed_of rfl rfl, fun _ => ?_, ?_⟩
  · show t ≤ t + (lat + 1) + 5
    omega
  · intro h; cases h

/-- What the proof knows about the run of the handler. -/
theorem run_of {lat : Nat} {T : TSys} {k : Option Nat} {h : Nat} {i : Irq} (I : Turn lat T)
    (hp : Possible lat T (.irq k h i)) :
    Run (lat + 1) lat { T.sys.bus with tSet := none } (irqAt T k h i) T.z
      (h - counter T.sys.bus T.z h) h T.last (k.getD T.last) := by
  obtain ⟨_, hnow, hone, hedge, hsoon⟩ := hp
  have hz := I.zn
  have capK : (irqAt T k h i).cap = true → ∃ x, k = some x := by
    intro hc
    cases k with
    | none => cases hc
    | some x => exact ⟨x, rfl⟩
  have tmoIff : (irqAt T k h i).tmo = true →
      T.sys.bus.tInt = true ∧ T.z + T.sys.bus.mTime < h := by
    intro ht
    simpa [irqAt] using ht
  have notTmo : T.sys.bus.tInt = true → (irqAt T k h i).tmo = false →
      h ≤ T.z + T.sys.bus.mTime := by
    intro h1 h2
    by_cases hx : T.z + T.sys.bus.mTime < h
    · have : (irqAt T k h i).tmo = true := by simp [irqAt, h1, hx]
      rw [h2] at this; cases this
    · omega
  have cnt : ∀ x, x ≤ T.z + T.sys.bus.mTime → counter T.sys.bus T.z x = x - T.z := by
    intro x hx
    unfold counter
    split
    · exact Nat.mod_eq_of_lt (by omega)
    · rfl
  refine ⟨Nat.le_refl _, ?_, by omega, ?_, ?_, ?_, ?_, ?_, ?_, hsoon, hone, ?_, ?_, ?_⟩
  · cases k with
    | none => exact Nat.le_trans I.ln hnow
    | some x => exact (hedge x rfl).2.2.1
  · intro hc
    cases k with
    | none => rfl
    | some x => cases hc
  · intro hc
    obtain ⟨x, rfl⟩ := capK hc
    obtain ⟨_, h2, h3, _⟩ := hedge x rfl
    exact dt_le T.sys.bus _ T.z x h (by omega) h3 rfl rfl
  · intro hc hr m
    obtain ⟨x, rfl⟩ := capK hc
    obtain ⟨_, h2, h3, _⟩ := hedge x rfl
    exact dt_le' T.sys.bus _ T.z x h m (by omega) h3 hr rfl rfl
  · intro hr
    have hr' : T.sys.bus.tReset = false := hr
    unfold counter
    rw [hr']
    simp only [Bool.false_eq_true, if_false]
    omega
  · intro h1 h2
    have := notTmo h1 h2
    rw [cnt h this]
    exact ⟨by omega, this⟩
  · intro ht hr
    have hr' : T.sys.bus.tReset = true := hr
    obtain ⟨_, h2⟩ := tmoIff ht
    show T.z + T.sys.bus.mTime < h - counter T.sys.bus T.z h
    unfold counter
    rw [if_pos hr']
    have e := Nat.div_add_mod (h - T.z) (T.sys.bus.mTime + 1)
    have q : 1 ≤ (h - T.z) / (T.sys.bus.mTime + 1) := by
      rw [Nat.le_div_iff_mul_le (by omega)]; omega
    have m : (T.sys.bus.mTime + 1) * 1 ≤ (T.sys.bus.mTime + 1) * ((h - T.z) / (T.sys.bus.mTime + 1)) :=
      Nat.mul_le_mul_left _ q
    omega
  · intro hc
    obtain ⟨x, rfl⟩ := capK hc
    exact (hedge x rfl).1
  · intro hc hr hi ht
    obtain ⟨x, rfl⟩ := capK hc
    obtain ⟨_, h2, h3, _⟩ := hedge x rfl
    have := notTmo hi ht
    show T.z + counter T.sys.bus T.z x = x
    rw [cnt x (by omega)]
    omega
  · exact fun ht => (tmoIff ht).1

theorem isr_irqAt (T : TSys) (k : Option Nat) (h : Nat) (i : Irq) (b : Bus) :
    isr (irqAt T k h i) b = dispatch (irqAt T k h i) { b with tSet := none } := by
  unfold isr isSpike
  have : (irqAt T k h i).spike = false := rfl
  rw [this]
  simp

theorem turn_step {lat : Nat} {T : TSys} {e : TEv} (I : Turn lat T) (hp : Possible lat T e) :
    Turn lat (tnext T e).1 := by
  cases e with
  | irq k h i =>
    have R := run_of I hp
    have hpz := hp.1
    have hst : (step T.sys (.irq (irqAt T k h i))).1 =
        { T.sys with bus := (dispatch (irqAt T k h i) { T.sys.bus with tSet := none }).1 } := by
      simp only [step, hpz, Bool.false_eq_true, if_false, isr_irqAt]
    have hnp : (step T.sys (.irq (irqAt T k h i))).1.paused = false := by rw [hst]; exact hpz
    refine ⟨?_, R.l1h, step_pace _ _ I.pace, step_armed _ _ I.armed, ?_, ?_⟩
    · show zeroAt _ h _ ≤ h
      unfold zeroAt
      split
      · exact R.z1h
      · omega
    · intro _
      show fits (lat + 1) (zeroAt _ h (step T.sys (.irq (irqAt T k h i))).1.bus.tSet) h _
        (step T.sys (.irq (irqAt T k h i))).1.bus
      rw [hst]
      exact dispatch_fits (b := { T.sys.bus with tSet := none }) R rfl (I.pace hpz)
        ⟨(I.armed hpz).timer, (I.armed hpz).edge⟩ hp.2.1 (I.fit hpz)
    · intro hx
      have : (step T.sys (.irq (irqAt T k h i))).1.paused = true := hx
      rw [hnp] at this; cases this
  | call t e =>
    obtain ⟨ht, hne⟩ := hp
    have hz := I.zn
    have hl := I.ln
    have P := step_pace { T.sys with bus := { T.sys.bus with tSet := none } } e I.pace
    have A := step_armed { T.sys with bus := { T.sys.bus with tSet := none } } e
      (fun h => ⟨(I.armed h).timer, (I.armed h).edge⟩)
    have Z : ∀ o : Option Nat, zeroAt T.z t o ≤ t := by
      intro o
      unfold zeroAt
      split <;> omega
    have later : T.sys.paused = false → ∀ c : Bus, c.st = T.sys.bus.st → c.mTime = T.sys.bus.mTime →
        c.capInt = T.sys.bus.capInt → c.tReset = T.sys.bus.tReset →
        fits (lat + 1) T.z t T.last c := by
      intro hp c c1 c2 c3 c4
      have := I.fit hp
      unfold fits at this ⊢
      rw [c1, c2, c3, c4]
      cases hs : T.sys.bus.st <;> rw [hs] at this <;> dsimp only at this ⊢
      case idle => omega
      all_goals exact this
    refine ⟨Z _, Nat.le_trans hl ht, P, A, ?_, ?_⟩
    · cases e <;> simp only [tnext, step]
      case irq i => exact absurd rfl (hne i)
      case queue own tt len =>
        split
        · exact fun h => later h _ rfl rfl rfl rfl
        · exact fun h => later h _ rfl rfl rfl rfl
      case kick =>
        by_cases hs : T.sys.bus.st = .idle
        · simp only [hs, if_true]
          intro h
          have := I.fit h
          unfold fits at this
          rw [hs] at this
          dsimp only at this
          unfold fits startSendingImmediately
          simp only [zeroAt]
          exact ⟨by omega, trivial⟩
        · simp only [hs, if_false]
          exact fun h => later h _ rfl rfl rfl rfl
      case discard => exact fun h => later h _ rfl rfl rfl rfl
      case pause w =>
        split
        · intro h; cases h
        · exact fun h => later h _ rfl rfl rfl rfl
      case resume =>
        split
        · intro _
          unfold fits initState
          simp only [zeroAt]
          omega
        · exact fun h => later h _ rfl rfl rfl rfl
      case maxRetries n => exact fun h => later h _ rfl rfl rfl rfl
      case maxBusyRetries n => exact fun h => later h _ rfl rfl rfl rfl
    · cases e <;> simp only [tnext, step]
      case irq i => exact absurd rfl (hne i)
      case queue own tt len => split <;> exact I.notIdle
      case kick =>
        split
        · intro _ hx; cases hx
        · exact I.notIdle
      case discard => exact I.notIdle
      case pause w =>
        split
        · intro _ hx; cases hx
        · exact I.notIdle
      case resume =>
        split
        · intro h; cases h
        · exact I.notIdle
      case maxRetries n => exact I.notIdle
      case maxBusyRetries n => exact I.notIdle

theorem turn_run {lat : Nat} (es : List TEv) : ∀ {T : TSys}, Turn lat T → Valid lat T es →
    Turn lat (trun T es) := by
  induction es with
  | nil => exact fun I _ => I
  | cons e es ih => exact fun I h => ih (turn_step I h.1) h.2

/-! ## The property -/

/-- A transmission begins only in the handler. -/
theorem begins_irq {T : TSys} {e : TEv} {o : Out} (hb : o ∈ (tnext T e).2)
    (hp : ∀ t c, e = .call t c → ∀ i, c ≠ .irq i) : ∃ k h i, e = .irq k h i := by
  cases e with
  | irq k h i => exact ⟨k, h, i, rfl⟩
  | call t c =>
    have hn := hp t c rfl
    exfalso
    cases c <;> simp only [tnext, step] at hb
    case irq i => exact hn i rfl
    all_goals first
      | (simp at hb; done)
      | (split at hb <;> simp at hb; done)

theorem turn_telegram {lat : Nat} {T : TSys} {e : TEv} (I : Turn lat T) (he : Possible lat T e)
    (hb : .txBegin ∈ (tnext T e).2) :
    let T' := (tnext T e).1
    T'.last = T.last ∧ T.last + delayBits 50 ≤ startBit T' + lat + 1 ∧
    ∀ t, T'.sys.bus.sendCur = some t → t 0 &&& 0x20#8 ≠ 0#8 → t 0 &&& 0x04#8 ≠ 0#8 →
      T.last + delayBits 50 + delayBits 3 ≤ startBit T' + lat + 1 := by
  obtain ⟨k, h, i, rfl⟩ := begins_irq hb (by
    rintro t c rfl j
    exact he.2 j)
  have hnp := he.1
  have R := run_of I he
  have hst : step T.sys (.irq (irqAt T k h i)) =
      ({ T.sys with bus := (dispatch (irqAt T k h i) { T.sys.bus with tSet := none }).1 },
        (dispatch (irqAt T k h i) { T.sys.bus with tSet := none }).2) := by
    simp only [step, hnp, Bool.false_eq_true, if_false, isr_irqAt]
  have hf := I.fit hnp
  simp only [tnext, hst] at hb ⊢
  obtain ⟨hc, hw⟩ := dispatch_begin _ _ (Or.inl rfl) hb
  rcases hw with ⟨w1, w2, _⟩ | ⟨_, _, w3⟩
  · rw [w2] at hb ⊢
    obtain ⟨_, _, _, d2, d3, d4⟩ := wait50_begin _ _ (Or.inl rfl) hb
    have hq := R.quiet hc
    have ht : (irqAt T k h i).tmo = true := by
      rcases R.one with h1 | h1
      · rw [hc] at h1; cases h1
      · exact h1
    unfold fits at hf
    have w1' : T.sys.bus.st = .wait50 := w1
    rw [w1'] at hf
    dsimp only at hf
    have hlt := R.late ht hf.2
    have hlt' : T.z + T.sys.bus.mTime < h - counter T.sys.bus T.z h := hlt
    have e50 : delayBits 50 = 5208 := by decide
    have e3 : delayBits 3 = 313 := by decide
    refine ⟨hq, ?_, ?_⟩
    · unfold startBit
      simp only [d2, zeroAt]
      omega
    · intro t h1 h2 h3
      have := d4 t h1 h2 h3
      unfold startBit
      simp only [d2, zeroAt]
      omega
  · cases w3

/-- **C93, telegrams.**  Whatever happened before, on the line or in the device: when a device begins
to send a telegram, the start bit it has in mind comes at least 50 bit times after the last falling
edge it was told about, up to the delay `lat` of its interrupt handler and a microsecond; for a
telegram of normal or low priority that is not a repetition, at least 53 bit times. -/
theorem C93_telegram (lat t0 : Nat) (es : List TEv) (e : TEv)
    (hv : Valid lat (tboot t0) es) (he : Possible lat (trun (tboot t0) es) e)
    (hb : .txBegin ∈ (tnext (trun (tboot t0) es) e).2) :
    let T := trun (tboot t0) es
    let T' := (tnext T e).1
    T'.last = T.last ∧ T.last + delayBits 50 ≤ startBit T' + lat + 1 ∧
    ∀ t, T'.sys.bus.sendCur = some t → t 0 &&& 0x20#8 ≠ 0#8 → t 0 &&& 0x04#8 ≠ 0#8 →
      T.last + delayBits 50 + delayBits 3 ≤ startBit T' + lat + 1 := by
  exact turn_telegram (turn_run es (turn_boot lat t0) hv) he hb

theorem turn_acknowledge {lat : Nat} {T : TSys} {e : TEv} (I : Turn lat T) (he : Possible lat T e)
    (hb : .ackBegin ∈ (tnext T e).2) :
    let T' := (tnext T e).1
    T'.last = T.last ∧ T.last + delayBits 15 ≤ startBit T' + lat + 1 := by
  obtain ⟨k, h, i, rfl⟩ := begins_irq hb (by
    rintro t c rfl j
    exact he.2 j)
  have hnp := he.1
  have R := run_of I he
  have hst : step T.sys (.irq (irqAt T k h i)) =
      ({ T.sys with bus := (dispatch (irqAt T k h i) { T.sys.bus with tSet := none }).1 },
        (dispatch (irqAt T k h i) { T.sys.bus with tSet := none }).2) := by
    simp only [step, hnp, Bool.false_eq_true, if_false, isr_irqAt]
  have hf := I.fit hnp
  have hP := I.pace hnp
  simp only [tnext, hst] at hb ⊢
  obtain ⟨hc, hw⟩ := dispatch_begin _ _ (Or.inr rfl) hb
  rcases hw with ⟨_, _, w3⟩ | ⟨w1, w2, _⟩
  · cases w3
  · rw [w2]
    have hq := R.quiet hc
    have ht : (irqAt T k h i).tmo = true := by
      rcases R.one with h1 | h1
      · rw [hc] at h1; cases h1
      · exact h1
    have w1' : T.sys.bus.st = .waitAckTx := w1
    unfold fits at hf
    unfold Pace at hP
    rw [w1'] at hf hP
    dsimp only [paceOk] at hf hP
    have hlt : T.z + T.sys.bus.mTime < h - counter T.sys.bus T.z h := R.late ht hP
    have e15 : delayBits 15 = 1563 := by decide
    have e1 : preSend = 104 := by decide
    refine ⟨hq, ?_⟩
    unfold waitAckTx startBit
    simp only [hc, Bool.false_eq_true, if_false, zeroAt]
    omega

/-- **C93, acknowledges.**  When a device begins to acknowledge a telegram, the start bit of the
acknowledge comes at least 15 bit times after the last falling edge it was told about, up to the delay
of its interrupt handler and a microsecond. -/
theorem C93_acknowledge (lat t0 : Nat) (es : List TEv) (e : TEv)
    (hv : Valid lat (tboot t0) es) (he : Possible lat (trun (tboot t0) es) e)
    (hb : .ackBegin ∈ (tnext (trun (tboot t0) es) e).2) :
    let T := trun (tboot t0) es
    let T' := (tnext T e).1
    T'.last = T.last ∧ T.last + delayBits 15 ≤ startBit T' + lat + 1 := by
  exact turn_acknowledge (turn_run es (turn_boot lat t0) hv) he hb

/-! ## The hypotheses are met -/

theorem possible_match {lat : Nat} {T : TSys} {h : Nat} {i : Irq}
    (c : T.sys.paused = false ∧ T.now ≤ h ∧ T.sys.bus.tInt = true ∧ T.z + T.sys.bus.mTime < h ∧
      h ≤ T.z + T.sys.bus.mTime + lat) : Possible lat T (.irq none h i) := by
  obtain ⟨c1, c2, c3, c4, c5⟩ := c
  refine ⟨c1, c2, Or.inr ?_, ?_, fun _ => c5⟩
  · simp [irqAt, c3, c4]
  · intro x hx; cases hx

theorem possible_edge {lat : Nat} {T : TSys} {k h : Nat} {i : Irq}
    (c : T.sys.paused = false ∧ T.sys.bus.capInt = true ∧ T.now ≤ k ∧ k ≤ h ∧ h ≤ k + lat ∧
      (T.z + T.sys.bus.mTime < h → h ≤ T.z + T.sys.bus.mTime + lat)) :
    Possible lat T (.irq (some k) h i) := by
  obtain ⟨c1, c2, c3, c4, c5, c6⟩ := c
  refine ⟨c1, Nat.le_trans c3 c4, Or.inl rfl, ?_, ?_⟩
  · intro x hx
    cases hx
    exact ⟨c2, c3, c4, c5⟩
  · intro ht
    have : T.sys.bus.tInt = true ∧ T.z + T.sys.bus.mTime < h := by simpa [irqAt] using ht
    exact c6 this.2

/-- A quiet device with the address 1.1.1. -/
def accessIrq : Irq :=
  { cap := false, tmo := false, capVal := 0, now := 0, spike := false, millis := 7#32
    own := 0x1101#16, known := fun _ => false, tlEnabled := true, llEnabled := true }

/-- A group telegram of system priority. -/
def accessTel : Buf := fun n =>
  [0xb0#8, 0x11#8, 0x01#8, 0x08#8, 0x01#8, 0xe1#8, 0x00#8, 0x81#8].getD n 0#8

/-- The device starts and gets idle; it hears a character, is given a telegram meanwhile, and then
hears an edge just after it has closed the character (`9` µs before its handler runs). -/
def accessRun : List TEv :=
  [.call 0 (.maxRetries 0), .irq none 4376 accessIrq, .irq none 5313 accessIrq,
    .irq (some 6000) 6003 accessIrq, .irq (some 7150) 7150 accessIrq,
    .call 7200 (.queue 0x1101#16 accessTel 8), .call 7200 .kick, .irq none 7380 accessIrq]

theorem access_valid : Valid 9 (tboot 0) accessRun := by
  refine ⟨⟨by decide, by intro i h; cases h⟩, possible_match (by decide +kernel),
    possible_match (by decide +kernel), possible_edge (by decide +kernel),
    possible_edge (by decide +kernel), ⟨by decide +kernel, by intro i h; cases h⟩,
    ⟨by decide +kernel, by intro i h; cases h⟩, possible_match (by decide +kernel), trivial⟩

/-- The hypotheses of `C93_telegram` are met, and its bound is sharp up to 2 µs: the start bit comes
5200 µs after the edge, 8 µs less than 50 bit times, with a handler that may be 9 µs late. -/
example :
    let T := trun (tboot 0) accessRun
    let e := TEv.irq none 12246 accessIrq
    Possible 9 T e ∧ .txBegin ∈ (tnext T e).2 ∧ T.last = 7150 ∧
    startBit (tnext T e).1 = 7150 + 5200 := by
  refine ⟨possible_match (by decide +kernel), by decide +kernel, by decide +kernel, by decide +kernel⟩

/-! A device that hears a telegram for it and acknowledges. -/

/-- The device uses the group 1/0/1. -/
def listenIrq : Irq := { accessIrq with known := fun a => a == 0x0801#16 }

/-- Number of one bits, for the even parity bit. -/
def onesIn (c : Nat) : Nat := ((List.range 8).filter fun j => c.testBit j).length

/-- The character `c` with its start bit at `k`: the falling edges of the zero bits and the match. -/
def charEvs (k : Nat) (c : Nat) : List TEv :=
  (TEv.irq (some k) k listenIrq ::
    ((List.range 9).filter fun j => !(c + (onesIn c % 2) * 256).testBit j).map fun j =>
      TEv.irq (some (k + 104 * (j + 1))) (k + 104 * (j + 1)) listenIrq) ++
  [TEv.irq none (k + 1142) listenIrq]

/-- Characters one after the other. -/
def frameEvs : Nat → List Nat → List TEv
  | _, [] => []
  | k, c :: cs => charEvs k c ++ frameEvs (k + 1352) cs

/-- `Possible`, computed, for the events used here. -/
def possibleB (lat : Nat) (T : TSys) : TEv → Bool
  | .irq none h _ =>
    !T.sys.paused && decide (T.now ≤ h) && T.sys.bus.tInt && decide (T.z + T.sys.bus.mTime < h)
      && decide (h ≤ T.z + T.sys.bus.mTime + lat)
  | .irq (some k) h _ =>
    !T.sys.paused && T.sys.bus.capInt && decide (T.now ≤ k) && decide (k ≤ h)
      && decide (h ≤ k + lat) && decide (h ≤ T.z + T.sys.bus.mTime + lat)
  | .call _ _ => false

theorem possibleB_sound {lat : Nat} {T : TSys} {e : TEv} (h : possibleB lat T e = true) :
    Possible lat T e := by
  match e, h with
  | .irq none x _, h =>
    simp only [possibleB, Bool.and_eq_true, Bool.not_eq_true', decide_eq_true_eq] at h
    exact possible_match ⟨h.1.1.1.1, h.1.1.1.2, h.1.1.2, h.1.2, h.2⟩
  | .irq (some k) x _, h =>
    simp only [possibleB, Bool.and_eq_true, Bool.not_eq_true', decide_eq_true_eq] at h
    exact possible_edge ⟨h.1.1.1.1.1, h.1.1.1.1.2, h.1.1.1.2, h.1.1.2, h.1.2, fun _ => h.2⟩

/-- `Valid`, computed. -/
def validB (lat : Nat) : TSys → List TEv → Bool
  | _, [] => true
  | T, e :: es => possibleB lat T e && validB lat (tnext T e).1 es

theorem validB_sound {lat : Nat} (es : List TEv) : ∀ T : TSys, validB lat T es = true →
    Valid lat T es := by
  induction es with
  | nil => exact fun _ _ => trivial
  | cons e es ih =>
    intro T h
    simp only [validB, Bool.and_eq_true] at h
    exact ⟨possibleB_sound h.1, ih _ h.2⟩

/-- The device starts, gets idle and hears a telegram for 1/0/1; its last character starts at 16816
and its last falling edge is at 17648. -/
def listenRun : List TEv :=
  [.irq none 4376 listenIrq, .irq none 5313 listenIrq] ++
  frameEvs 6000 [0xbc, 0x11, 0x05, 0x08, 0x01, 0xe1, 0x00, 0x81, 0x3e] ++
  [.irq none (16816 + 1380) listenIrq]

/-- The hypotheses of `C93_acknowledge` are met. -/
example :
    let T := trun (tboot 0) listenRun
    let e := TEv.irq none (16816 + 2601) listenIrq
    Valid 1 (tboot 0) listenRun ∧ Possible 1 T e ∧ .ackBegin ∈ (tnext T e).2 ∧
    T.last = 17648 ∧ startBit (tnext T e).1 = 16816 + 2705 := by
  refine ⟨validB_sound _ _ (by decide +kernel), possibleB_sound (by decide +kernel),
    by decide +kernel, by decide +kernel, by decide +kernel⟩

end Verif.Bus
