import Verif.Bus.AccessSpec
import Verif.Bus.TimeInv

/-!
# What each state knows about the time of the last edge
-/

namespace Verif.Bus

open Verif.Knx

/-- The last edge, at `l`, was long enough before the time the state waits for.  `d`: tolerance. -/
def fits (d z now l : Nat) (b : Bus) : Prop :=
  match b.st with
  | .idle => l + 5103 ≤ now + d
  | .init => l ≤ z + d + 5
  | .waitStart => l ≤ z + d
  | .waitAck => l ≤ z + d
  | .ackWindow => l ≤ z + d ∧ b.capInt = false
  | .waitAckTx => l ≤ z + d ∧ b.mTime = 1458
  | .wait50 => l + 5103 ≤ z + b.mTime + d ∧ b.tReset = true
  | .recvBits => l ≤ z + b.mTime + d
  | .sendStart => l ≤ z + b.mTime + d
  | .sendBit0 => l ≤ z + b.mTime + d
  | .sendBits => l ≤ z + b.mTime + d
  | .sendEndTx => l ≤ z + b.mTime + d ∧ b.capInt = false
  | .initRx => False
  | .sendEndByte => False

/-- `fits` after the handler has run at `h`. -/
def fitsAt (d z1 h l : Nat) (b : Bus) : Prop := fits d (zeroAt z1 h b.tSet) h l b

/-- The time since the captured edge, as the code computes it. -/
def dtOf (i : Irq) (m : Nat) : Nat :=
  if i.capVal ≤ i.now then i.now - i.capVal else m + 1 - i.capVal + i.now

theorem mod_gap (M x y : Nat) (hM : 0 < M) (hxy : x ≤ y) :
    (if x % M ≤ y % M then y % M - x % M else M - x % M + y % M) ≤ y - x := by
  have hx := Nat.div_add_mod x M
  have hy := Nat.div_add_mod y M
  have hq : x / M ≤ y / M := Nat.div_le_div_right hxy
  have hxm := Nat.mod_lt x hM
  have hym := Nat.mod_lt y hM
  by_cases he : x / M = y / M
  · rw [he] at hx
    split <;> omega
  · have h1 : M * (x / M + 1) ≤ M * (y / M) := Nat.mul_le_mul_left _ (by omega)
    rw [Nat.mul_add, Nat.mul_one] at h1
    split <;> omega

theorem dt_le (b : Bus) (i : Irq) (z k h : Nat) (hz : z ≤ k) (hk : k ≤ h)
    (h1 : i.capVal = counter b z k) (h2 : i.now = counter b z h) :
    dtOf i b.mTime ≤ h - k := by
  unfold dtOf
  rw [h1, h2]
  unfold counter
  by_cases hr : b.tReset = true
  · simp only [hr, if_true]
    have := mod_gap (b.mTime + 1) (k - z) (h - z) (by omega) (by omega)
    have e : h - z - (k - z) = h - k := by omega
    rw [e] at this
    exact this
  · simp only [hr]
    simp only [Bool.false_eq_true, if_false]
    rw [if_pos (by omega)]
    omega

theorem dt_le' (b : Bus) (i : Irq) (z k h m : Nat) (hz : z ≤ k) (hk : k ≤ h)
    (hr : b.tReset = false) (h1 : i.capVal = counter b z k) (h2 : i.now = counter b z h) :
    dtOf i m ≤ h - k := by
  unfold dtOf
  rw [h1, h2]
  unfold counter
  simp only [hr, Bool.false_eq_true, if_false]
  rw [if_pos (by omega)]
  omega

theorem waitStart_edge_fits (i : Irq) (b : Bus) (d z1 h k : Nat) (hd : 1 ≤ d) (hc : i.cap = true)
    (hk : k ≤ h) (hdt : dtOf i b.mTime ≤ h - k) : fitsAt d z1 h k (waitStart i b).1 := by
  unfold waitStart
  simp only [hc, Bool.not_true, Bool.false_eq_true, if_false]
  unfold fitsAt fits zeroAt
  simp only []
  unfold dtOf at hdt
  have e : 11 * bitTimeUs - 1 = 1143 := by decide
  omega

theorem initRx_edge_fits (i : Irq) (b : Bus) (d z1 h k : Nat) (hd : 1 ≤ d) (hc : i.cap = true)
    (hk : k ≤ h) (hdt : dtOf i b.mTime ≤ h - k) : fitsAt d z1 h k (initRx i b).1 :=
  waitStart_edge_fits i _ d z1 h k hd hc hk hdt

theorem waitStart_quiet_fits (i : Irq) (b : Bus) (d z1 h l : Nat) (hc : i.cap = false)
    (ht : b.tSet = none) (hl : l ≤ z1 + d) : fitsAt d z1 h l (waitStart i b).1 := by
  unfold waitStart
  simp only [hc, Bool.not_false, if_true]
  have key : ∀ (c : Bus) (v : Bool), c.tReset = true → c.tSet = none →
      fitsAt d z1 h l (handleTelegram i c v).1 := by
    intro c v hcr hcs
    obtain ⟨h1, h2, h3⟩ := handle_pace i c v
    unfold fitsAt fits
    rw [h3, hcs]
    rcases h1 with ⟨a, e⟩ | ⟨a, e⟩
    · rw [a]; exact ⟨hl, e⟩
    · rw [a]; exact ⟨by simp only [zeroAt]; omega, h2.trans hcr⟩
  apply key
  · split <;> rfl
  · split <;> exact ht

theorem recvBits_fits (i : Irq) (b : Bus) (d z1 h l : Nat) (hs : b.st = .recvBits)
    (ht : b.tSet = none) (h1 : i.tmo = true → l ≤ z1 + d)
    (h2 : i.tmo = false → l ≤ z1 + b.mTime + d) : fitsAt d z1 h l (recvBits i b).1 := by
  unfold recvBits
  simp only []
  by_cases hm : i.tmo = true
  · simp only [hm, if_true]
    unfold endOfChar fitsAt fits
    simp only []
    have : ∀ o : Option Nat, o = none → l ≤ zeroAt z1 h o + d := by
      intro o ho; rw [ho]; exact h1 hm
    apply this
    split <;> exact ht
  · have hm' : i.tmo = false := by simpa using hm
    simp only [hm', Bool.false_eq_true, if_false]
    split <;> (unfold fitsAt fits; simp only [hs, ht]; exact h2 hm')

theorem sendEndByte_fits (b : Bus) (d z1 h l : Nat) (ht : b.tSet = none) (hl : l ≤ z1 + d) :
    fitsAt d z1 h l (sendEndByte b).1 := by
  unfold sendEndByte
  split
  · unfold fitsAt fits
    simp only [ht, zeroAt]
    omega
  · unfold fitsAt fits
    simp only [ht, zeroAt]
    exact ⟨by omega, trivial⟩

theorem switchToRx_fields (i : Irq) (b : Bus) :
    (switchToRx i b).1.st = .recvBits ∧ (switchToRx i b).1.tSet = b.tSet ∧
    i.capVal ≤ (switchToRx i b).1.mTime + 1 := by
  unfold switchToRx
  simp only []
  refine ⟨trivial, ?_, by omega⟩
  have hc : (encounteredCollision b).1.tSet = b.tSet := by
    unfold encounteredCollision; split <;> rfl
  rw [← hc]
  split
  · rfl
  · split <;> rfl

theorem sendBits_fits (i : Irq) (b : Bus) (d z1 h l : Nat) (hd : 1 ≤ d) (hs : b.st = .sendBits)
    (ht : b.tSet = none) (h1 : i.tmo = true → l ≤ z1 + d)
    (h2 : i.tmo = false → l ≤ z1 + b.mTime ∧ l ≤ h ∧ l ≤ z1 + i.capVal) :
    fitsAt d z1 h l (sendBits i b).1 := by
  unfold sendBits
  by_cases hm : i.tmo = true
  · simp only [hm, Bool.not_true, Bool.false_eq_true, if_false]
    have hl := h1 hm
    split
    · unfold fitsAt fits
      simp only [hs, ht, zeroAt]
      omega
    · exact sendEndByte_fits _ d z1 h l ht hl
  · have hm' : i.tmo = false := by simpa using hm
    obtain ⟨a1, a2, a3⟩ := h2 hm'
    have stay : fitsAt d z1 h l b := by
      unfold fitsAt fits
      simp only [hs, ht, zeroAt]
      omega
    simp only [hm', Bool.not_false, if_true]
    split
    · exact stay
    · split
      · unfold fitsAt fits initState
        simp only [zeroAt]
        omega
      · split
        · obtain ⟨e1, e2, e3⟩ := switchToRx_fields i b
          apply recvBits_fits _ _ _ _ _ _ e1 (e2.trans ht)
          · intro hx; rw [hm'] at hx; cases hx
          · intro _; omega
        · exact stay

theorem sendBit0_fits (i : Irq) (b : Bus) (d z1 h l : Nat) (hd : 1 ≤ d)
    (ht : b.tSet = none) (h1 : i.tmo = true → l ≤ z1 + d)
    (h2 : i.tmo = false → l ≤ z1 + b.mTime ∧ l ≤ h ∧ l ≤ z1 + i.capVal) :
    fitsAt d z1 h l (sendBit0 i b).1 := by
  unfold sendBit0
  simp only []
  apply sendBits_fits _ _ _ _ _ _ hd rfl _ h1
  · simp only []
    split <;> exact h2
  · simp only []
    split <;> exact ht

theorem wait50_quiet_fits (i : Irq) (b : Bus) (d z z1 h l : Nat) (hc : i.cap = false)
    (ht : b.tSet = none) (hl : l + 5103 ≤ z + b.mTime + d) (h1 : z + b.mTime ≤ z1)
    (h2 : z1 ≤ h) : fitsAt d z1 h l (wait50 i b).1 := by
  unfold wait50
  simp only [hc, Bool.false_eq_true, if_false]
  have h3 : (if retriesExhausted b = true then
      finishSendingTelegram { b with txError := b.txError ||| 128#16 } else (b, [])).1.tSet = none := by
    split
    · unfold finishSendingTelegram; split <;> exact ht
    · exact ht
  revert h3
  generalize (if retriesExhausted b = true then
      finishSendingTelegram { b with txError := b.txError ||| 128#16 } else (b, [])) = r
  intro h3
  obtain ⟨c, o⟩ := r
  simp only at h3 ⊢
  split
  · unfold fitsAt fits
    simp only [h3, zeroAt]
    omega
  · unfold fitsAt fits idleState
    simp only []
    omega

/-- What the proof knows about one run of the handler: before it, the timer was zero at `z` and the
last edge was at `l`; after it they are `z1` (unless the handler writes the counter) and `l1`. -/
structure Run (d lat : Nat) (b : Bus) (i : Irq) (z z1 h l l1 : Nat) : Prop where
  hd : lat + 1 ≤ d
  l1h : l1 ≤ h
  z1h : z1 ≤ h
  quiet : i.cap = false → l1 = l
  dt : i.cap = true → dtOf i b.mTime ≤ h - l1
  dt' : i.cap = true → b.tReset = false → ∀ m, dtOf i m ≤ h - l1
  free : b.tReset = false → z1 = z
  early : b.tInt = true → i.tmo = false → z1 = z ∧ h ≤ z + b.mTime
  late : i.tmo = true → b.tReset = true → z + b.mTime < z1
  soon : i.tmo = true → h ≤ z + b.mTime + lat
  one : i.cap = true ∨ i.tmo = true
  capOn : i.cap = true → b.capInt = true
  capVal : i.cap = true → b.tReset = true → b.tInt = true → i.tmo = false → z + i.capVal = l1
  tIntOn : i.tmo = true → b.tInt = true

theorem Run.due {d lat : Nat} {b : Bus} {i : Irq} {z z1 h l l1 : Nat}
    (R : Run d lat b i z z1 h l l1) (hr : b.tReset = true) (ht : i.tmo = true)
    (hl : l ≤ z + b.mTime + d) : l1 ≤ z1 + d := by
  have a1 := R.late ht hr
  by_cases hc : i.cap = true
  · have a2 := R.soon ht
    have := R.l1h
    have := R.hd
    omega
  · rw [R.quiet (by simpa using hc)]
    omega

theorem Run.before {d lat : Nat} {b : Bus} {i : Irq} {z z1 h l l1 : Nat}
    (R : Run d lat b i z z1 h l l1) (hr : b.tReset = true) (hi : b.tInt = true)
    (ht : i.tmo = false) : i.cap = true ∧ l1 ≤ z1 + b.mTime ∧ l1 ≤ h ∧ l1 ≤ z1 + i.capVal := by
  have hc : i.cap = true := by
    rcases R.one with hc | hc
    · exact hc
    · rw [ht] at hc; cases hc
  obtain ⟨a1, a2⟩ := R.early hi ht
  have := R.capVal hc hr hi ht
  have := R.l1h
  exact ⟨hc, by omega, by omega, by omega⟩

theorem dispatch_fits {d lat : Nat} {b : Bus} {i : Irq} {z z1 h now l l1 : Nat}
    (R : Run d lat b i z z1 h l l1) (ht : b.tSet = none) (hP : Pace b) (hA : Armed b)
    (hnow : now ≤ h) (hf : fits d z now l b) : fitsAt d z1 h l1 (dispatch i b).1 := by
  have hd2 : 1 ≤ d := by have := R.hd; omega
  have edge : i.cap = true → ∀ c : Bus, c.mTime = b.mTime → fitsAt d z1 h l1 (initRx i c).1 := by
    intro hc c hm
    apply initRx_edge_fits _ _ _ _ _ _ hd2 hc R.l1h
    rw [hm]; exact R.dt hc
  have capT : ∀ x : Bool, ¬ x = true → x = false := by intro x; cases x <;> simp
  unfold Pace at hP
  unfold dispatch
  unfold fits at hf
  cases hs : b.st <;> rw [hs] at hf hP <;> dsimp only at hf ⊢ <;> simp only [paceOk] at hP
  case init =>
    unfold initSt
    by_cases hm : i.tmo = true
    · simp only [hm, Bool.not_true, Bool.false_eq_true, if_false]
      by_cases hc : i.cap = true
      · simp only [hc, if_true]
        unfold wait50
        simp only [hc, if_true]
        exact initRx_edge_fits _ _ _ _ _ _ hd2 hc R.l1h (R.dt' hc hP _)
      · simp only [hc]
        unfold fitsAt fits
        simp only [Bool.false_eq_true, if_false, ht, zeroAt, R.free hP, R.quiet (capT _ hc)]
        have : delayBits 2 + sendWait - preSend = 5312 := by decide
        exact ⟨by omega, trivial⟩
    · simp only [capT _ hm, Bool.not_false, if_true]
      unfold fitsAt fits
      simp only [hs, zeroAt]
      have := R.l1h
      have := R.hd
      omega
  case idle =>
    split
    · next hc => exact edge hc b rfl
    · next hc =>
      rcases R.one with h1 | h1
      · exact absurd h1 hc
      · have hq := R.quiet (capT _ hc)
        unfold fitsAt fits
        simp only [hs]
        omega
  case waitStart =>
    by_cases hc : i.cap = true
    · exact waitStart_edge_fits _ _ _ _ _ _ hd2 hc R.l1h (R.dt hc)
    · apply waitStart_quiet_fits _ _ _ _ _ _ (capT _ hc) ht
      rw [R.quiet (capT _ hc), R.free hP]; exact hf
  case recvBits =>
    have hi := hA.timer (by rw [hs]; decide)
    apply recvBits_fits _ _ _ _ _ _ hs ht
    · exact fun hm => R.due hP hm hf
    · intro hm
      have := R.before hP hi hm
      omega
  case waitAckTx =>
    have hi := hA.timer (by rw [hs]; decide)
    unfold waitAckTx
    split
    · next hc => exact edge hc _ rfl
    · next hc =>
      rcases R.one with h1 | h1
      · exact absurd h1 hc
      · have := R.due hP h1 (by omega)
        unfold fitsAt fits
        simp only [ht, zeroAt]
        omega
  case wait50 =>
    have hi := hA.timer (by rw [hs]; decide)
    by_cases hc : i.cap = true
    · unfold wait50
      rw [if_pos hc]
      exact edge hc b rfl
    · rcases R.one with h1 | h1
      · exact absurd h1 hc
      · have h2 := R.late h1 hf.2
        rw [R.quiet (capT _ hc)]
        exact wait50_quiet_fits _ _ _ z _ _ _ (capT _ hc) ht hf.1 (by omega) R.z1h
  case sendStart =>
    have hi := hA.timer (by rw [hs]; decide)
    unfold sendStart
    by_cases hm : i.tmo = true
    · simp only [hm, Bool.not_true, Bool.false_eq_true, if_false]
      exact sendBit0_fits i { b with st := .sendBit0, txError := b.txError ||| 32#16 } d z1 h l1 hd2
        ht (fun _ => R.due hP.1 hm hf) (fun hx => by rw [hm] at hx; cases hx)
    · have hm' := capT _ hm
      obtain ⟨hc, b1, b2, b3⟩ := R.before hP.1 hi hm'
      simp only [hm', Bool.not_false, if_true]
      split
      · apply edge hc
        simp only []
        split
        · exact (coll_same b).2.2.1
        · rfl
      · unfold fitsAt fits
        simp only []
        split
        · simp only [ht, zeroAt]; omega
        · simp only [ht, zeroAt]; omega
  case sendBit0 =>
    have hi := hA.timer (by rw [hs]; decide)
    exact sendBit0_fits _ _ _ _ _ _ hd2 ht (fun hm => R.due hP hm hf)
      (fun hm => (R.before hP hi hm).2)
  case sendBits =>
    have hi := hA.timer (by rw [hs]; decide)
    exact sendBits_fits _ _ _ _ _ _ hd2 hs ht (fun hm => R.due hP hm hf)
      (fun hm => (R.before hP hi hm).2)
  case sendEndTx =>
    rcases R.one with h1 | h1
    · have := R.capOn h1
      rw [hf.2] at this; cases this
    · have := R.due hP h1 hf.1
      unfold sendEndTx
      split
      · unfold fitsAt fits
        simp only [ht, zeroAt]
        have e : sendWait - preSend - 1 = 5103 := by decide
        exact ⟨by omega, hP⟩
      · simp only []
        have key : ∀ c : Bus, c.st = .ackWindow → c.tSet = none → c.capInt = false →
            fitsAt d z1 h l1 c := by
          intro c c1 c2 c3
          unfold fitsAt fits
          rw [c1]
          simp only [c2, zeroAt]
          exact ⟨this, c3⟩
        split
        · split <;> exact key _ rfl ht hf.2
        · exact key _ rfl ht hf.2
  case ackWindow =>
    rcases R.one with h1 | h1
    · have := R.capOn h1
      rw [hf.2] at this; cases this
    · have hc : i.cap = false := by
        by_cases hc : i.cap = true
        · have := R.capOn hc
          rw [hf.2] at this; cases this
        · exact capT _ hc
      unfold ackWindow fitsAt fits
      simp only [ht, zeroAt, R.quiet hc, R.free hP]
      exact hf.1
  case waitAck =>
    unfold waitAck
    split
    · next hc => exact edge hc b rfl
    · next hc =>
      unfold fitsAt fits
      simp only [ht, zeroAt, R.quiet (capT _ hc), R.free hP]
      have e : sendWait - preSend - 1 = 5103 := by decide
      exact ⟨by omega, trivial⟩

end Verif.Bus
