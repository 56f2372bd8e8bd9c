import Verif.Bus.SharedInv
import Verif.Bus.PropsTx

/-!
# C104: the shared send buffer

The theorems range over every history `es` of the main program, the transport layer's completion report
and the link layer, with interrupts between any two memory accesses of the main program.
-/

namespace Verif.Bus

open Verif.Knx

/-! ## A connection control telegram that nobody acknowledges -/

/-- The main program acquires the buffer, fills it with a connection control telegram (a transport layer
acknowledge for the device 1.1.255) while an interrupt comes in between, and calls `sendTelegram`, up to
the store of the pointer. -/
def eFill : List SEv :=
  [.irq dTimeout, .test, .take, .poke 0 0xB0#8, .poke 3 0x11#8, .irq dTimeout, .poke 4 0xFF#8,
    .poke 5 0x60#8, .poke 6 0xC2#8, .send, .high 0x1101#16, .low, .irq dTimeout, .sum, .look]

/-- Silence. -/
def eSilence (n : Nat) : List SEv := List.replicate n (.irq dTimeout)

theorem boot_sys : bootS.sys = boot := rfl

/-- With the one buffer that both sides use, and with telegrams handed over again from inside the
completion report, the device behaves like the link layer of `Verif.Bus.Model`, which gets a copy of each
telegram: the same state and the same log, for the telegrams that stood in the buffer, complete, when it
was handed over. -/
theorem C104_refines (es : List SEv) :
    ∃ es', run boot es' = ((runS bootS es).1.sys, (runS bootS es).2) ∧
      queued boot es' = handedOver bootS es := by
  have := runS_refines boot_good es
  rwa [boot_sys] at this

example := C104_refines (eFill ++ [.point, .kick])

/-- While the link layer has the buffer, the main program does not write to it; while it does not have
it, the interrupt does not write to it. -/
theorem C104_exclusive (es : List SEv) (e : SEv) :
    ((runS bootS es).1.cur = true → e.isIrq = false →
      (stepS (runS bootS es).1 e).1.buf = (runS bootS es).1.buf) ∧
    ((runS bootS es).1.cur = false → e.isIrq = true →
      (stepS (runS bootS es).1 e).1.buf = (runS bootS es).1.buf) := by
  have hg := runS_good boot_good es
  generalize (runS bootS es).1 = s at *
  constructor
  · intro hc he
    have hpc := hg.own.pcs hc
    cases e <;> simp only [stepS]
    case irq => cases he
    case test => split <;> rfl
    case take => split <;> rfl
    case poke => rcases hpc with h | h <;> simp [h]
    case drop => split <;> rfl
    case send => split <;> rfl
    case high => rcases hpc with h | h <;> simp [h]
    case low => rcases hpc with h | h <;> simp [h]
    case sum => rcases hpc with h | h <;> simp [h]
    case look => split <;> rfl
    case point => split <;> rfl
    case kick =>
      split
      · exact (call_buf s .kick (by simp) (by simp)).2.1
      · rfl
    case discard => exact (call_buf s .discard (by simp) (by simp)).2.1
    case pause w => exact (call_buf s (.pause w) (by simp) (by simp)).2.1
    case resume => exact (call_buf s .resume (by simp) (by simp)).2.1
    case maxRetries n => exact (call_buf s (.maxRetries n) (by simp) (by simp)).2.1
    case maxBusyRetries n => exact (call_buf s (.maxBusyRetries n) (by simp) (by simp)).2.1
  · intro hc he
    cases e <;> first | cases he | skip
    rename_i i
    cases hp : s.paused
    · have hstep : stepS s (.irq i) = isrS i s := by simp [stepS, hp]
      rw [hstep]
      cases (isrS_step i s hg.link.inv.inv hg.link.err hp).1 with
      | idle h0 h1 h2 h3 => exact h3
      | keep h0 => rw [hc] at h0; cases h0
      | done ok h0 => rw [hc] at h0; cases h0
      | again h0 => rw [hc] at h0; cases h0
    · simp [stepS, hp]

example : (runS bootS eFill).1.cur = false ∧ (runS bootS (eFill ++ [.point])).1.cur = true := by
  decide +kernel

/-- The loop of `sendTelegram` that waits for the link layer to be done with the previous telegram never
waits: the link layer is done when the buffer can be acquired. -/
theorem C104_no_wait (es : List SEv) (h : (runS bootS es).1.pc = .spin) :
    (stepS (runS bootS es).1 .look).1.pc = .point := by
  have hg := runS_good boot_good es
  generalize (runS bootS es).1 = s at *
  have hc : s.cur = false := by
    cases hc : s.cur
    · rfl
    · rcases hg.own.pcs hc with h1 | h1 <;> rw [h] at h1 <;> cases h1
  simp [stepS, h, hc]

example := C104_no_wait (eFill.take 14) (by decide +kernel)

/-- When the main program is not itself using the buffer, the buffer is free exactly if the link layer
does not have it: it is never left occupied with nobody to free it. -/
theorem C104_free (es : List SEv) (h : (runS bootS es).1.pc = .away) :
    (runS bootS es).1.bst = .free ↔ (runS bootS es).1.cur = false := by
  have hg := runS_good boot_good es
  generalize (runS bootS es).1 = s at *
  have ho := hg.own.own
  rw [h] at ho
  rw [ho]
  cases s.cur <;> simp [mainState]

example := C104_free (eFill ++ [.point, .kick]) (by decide +kernel)

/-! ## Telegrams handed over again -/

theorem SameTelegram.refl (t : Buf) : SameTelegram t t := ⟨rfl, rfl, fun _ _ _ => rfl⟩

theorem SameTelegram.prepare {t r : Buf} (h : SameTelegram t r) (own : Word) :
    SameTelegram t (prepareTelegram own r (telegramSize r)) := by
  have hs := size_ge r
  obtain ⟨h1, h2, h3⟩ := h
  refine ⟨?_, ?_, ?_⟩
  · rw [prepare_at own r _ 0 (by omega) (by omega) (by omega)]; exact h1
  · rw [prepare_size]; exact h2
  · intro j hj1 hj2
    rw [prepare_at own r _ j (by omega) (by omega) (by omega)]
    exact h3 j hj1 hj2

theorem clear_set (x : Byte) : (x &&& 0xDF#8) ||| 0x20#8 = x ||| 0x20#8 := by
  revert x; decide +kernel

theorem SameTelegram.marked {t r : Buf} (h : SameTelegram t r) (b : Bus) :
    SameTelegram t (marked b r) := by
  have hs := size_ge r
  obtain ⟨h1, h2, h3⟩ := h
  refine ⟨?_, ?_, ?_⟩
  · rw [← h1]
    unfold Verif.Bus.marked markRepeated
    split
    · have hne : ¬ (0 = telegramSize r + 1 - 1) := by omega
      simp only [upd, hne, if_false, if_true]
      exact clear_set _
    · rfl
  · rw [marked_size]; exact h2
  · intro j hj1 hj2
    rw [marked_at b r j (by omega) (by omega)]
    exact h3 j hj1 hj2

theorem SameTelegram.control {t r : Buf} (h : SameTelegram t r) : isControl r = isControl t := by
  have hs := size_ge t
  unfold isControl
  rw [h.2.2 6 (by omega) (by omega)]

/-- While the main program hands nothing over and the link layer has nothing, nothing is handed over. -/
theorem regiven_nil (s : Shared) (e : SEv) (hg : SGood s) (hc : s.cur = false) : regiven s e = [] := by
  cases e <;> first | rfl | skip
  rename_i i
  have : again s i = false := by
    cases hp : s.paused
    · cases (isrS_step i s hg.link.inv.inv hg.link.err hp).1 with
      | idle h0 h1 => exact h1
      | keep h0 => rw [hc] at h0; cases h0
      | done ok h0 => rw [hc] at h0; cases h0
      | again h0 => rw [hc] at h0; cases h0
    · simp [again, hp]
  simp [regiven, this]

theorem cur_nil (s : Shared) (e : SEv) (hg : SGood s) (hc : s.cur = false) (hn : given s e = []) :
    (stepS s e).1.cur = false := by
  cases e <;> simp only [stepS]
  case irq i =>
    cases hp : s.paused
    · simp only [Bool.false_eq_true, if_false]
      cases (isrS_step i s hg.link.inv.inv hg.link.err hp).1 with
      | idle h0 h1 h2 => exact h2
      | keep h0 => rw [hc] at h0; cases h0
      | done ok h0 => rw [hc] at h0; cases h0
      | again h0 => rw [hc] at h0; cases h0
    · simp [hc]
  case test => split <;> exact hc
  case take => split <;> exact hc
  case poke => split <;> exact hc
  case drop => split <;> exact hc
  case send => split <;> exact hc
  case high => split <;> exact hc
  case low => split <;> exact hc
  case sum => split <;> exact hc
  case look => split <;> exact hc
  case point =>
    split
    · next h => simp [given, h] at hn
    · exact hc
  case kick =>
    split
    · exact (call_buf s .kick (by simp) (by simp)).1.trans hc
    · exact hc
  case discard => exact (call_buf s .discard (by simp) (by simp)).1.trans hc
  case pause w => exact (call_buf s (.pause w) (by simp) (by simp)).1.trans hc
  case resume => exact (call_buf s .resume (by simp) (by simp)).1.trans hc
  case maxRetries n => exact (call_buf s (.maxRetries n) (by simp) (by simp)).1.trans hc
  case maxBusyRetries n => exact (call_buf s (.maxBusyRetries n) (by simp) (by simp)).1.trans hc

/-- Steps other than interrupts while the link layer has the buffer. -/
theorem cur_keeps (s : Shared) (e : SEv) (hg : SGood s) (hc : s.cur = true) (he : e.isIrq = false) :
    (stepS s e).1.cur = true ∧ (stepS s e).1.buf = s.buf ∧ (stepS s e).1.rep = s.rep ∧
    given s e = [] := by
  have hpc := hg.own.pcs hc
  cases e <;> simp only [stepS, given]
  case irq => cases he
  case test => split <;> simp [hc]
  case take => split <;> simp [hc]
  case poke => rcases hpc with h | h <;> simp [h, hc]
  case drop => split <;> simp [hc]
  case send => split <;> simp [hc]
  case high => rcases hpc with h | h <;> simp [h, hc]
  case low => rcases hpc with h | h <;> simp [h, hc]
  case sum => rcases hpc with h | h <;> simp [h, hc]
  case look => split <;> simp [hc]
  case point => rcases hpc with h | h <;> simp [h, hc]
  case kick =>
    obtain ⟨c1, c2, c3, c4, c5⟩ := call_buf s .kick (by simp) (by simp)
    split
    · simp only [c1, c2, c4, hc, and_self]
    · simp [hc]
  case discard =>
    obtain ⟨c1, c2, c3, c4, c5⟩ := call_buf s .discard (by simp) (by simp)
    simp only [c1, c2, c4, hc, and_self]
  case pause w =>
    obtain ⟨c1, c2, c3, c4, c5⟩ := call_buf s (.pause w) (by simp) (by simp)
    simp only [c1, c2, c4, hc, and_self]
  case resume =>
    obtain ⟨c1, c2, c3, c4, c5⟩ := call_buf s .resume (by simp) (by simp)
    simp only [c1, c2, c4, hc, and_self]
  case maxRetries n =>
    obtain ⟨c1, c2, c3, c4, c5⟩ := call_buf s (.maxRetries n) (by simp) (by simp)
    simp only [c1, c2, c4, hc, and_self]
  case maxBusyRetries n =>
    obtain ⟨c1, c2, c3, c4, c5⟩ := call_buf s (.maxBusyRetries n) (by simp) (by simp)
    simp only [c1, c2, c4, hc, and_self]

theorem regivens_bound {t : Buf} {s : Shared} (hg : SGood s) (fs : List SEv) (hn : givens s fs = [])
    (h : s.cur = true → SameTelegram t s.buf) :
    (s.cur = true → s.rep + (regivens s fs).length ≤ 3) ∧ (s.cur = false → regivens s fs = []) ∧
    (isControl t = false → regivens s fs = []) ∧ ∀ r ∈ regivens s fs, SameTelegram t r := by
  induction fs generalizing s with
  | nil => exact ⟨fun _ => hg.own.rep, fun _ => rfl, fun _ => rfl, by simp [regivens]⟩
  | cons e fs ih =>
    simp only [givens, List.append_eq_nil_iff] at hn
    have hg' := stepS_good hg e
    cases hc : s.cur
    · have hc' := cur_nil s e hg hc hn.1
      have ih' := ih hg' hn.2 (by rw [hc']; simp)
      simp only [regivens, regiven_nil s e hg hc, List.nil_append]
      exact ⟨by simp, fun _ => ih'.2.1 hc', ih'.2.2.1, ih'.2.2.2⟩
    · by_cases hirq : e.isIrq = true
      · cases e <;> first | cases hirq | skip
        rename_i i
        cases hp : s.paused
        · have hstep : stepS s (.irq i) = isrS i s := by simp [stepS, hp]
          have hk := (isrS_step i s hg.link.inv.inv hg.link.err hp).1
          rw [hstep] at hn hg'
          simp only [regivens, hstep]
          cases hk with
          | idle h0 => rw [hc] at h0; cases h0
          | keep h0 h1 h2 h3 h4 h5 =>
            have ih' := ih hg' hn.2 (by
              intro _
              rcases h3 with h3 | h3
              · rw [h3]; exact h hc
              · rw [h3]; exact (h hc).marked _)
            simp only [regiven, h1, Bool.false_eq_true, if_false, List.nil_append]
            rw [h5] at ih'
            exact ⟨fun _ => ih'.1 h2, by simp, ih'.2.2.1, ih'.2.2.2⟩
          | done ok h0 h1 h2 =>
            have ih' := ih hg' hn.2 (by rw [h2]; simp)
            simp only [regiven, h1, Bool.false_eq_true, if_false, List.nil_append, ih'.2.1 h2]
            exact ⟨fun _ => hg.own.rep, by simp, by simp, by simp⟩
          | again h0 h1 h2 h3 h4 h5 h6 =>
            have hs : SameTelegram t (isrS i s).1.buf := by rw [h3]; exact (h hc).prepare _
            have ih' := ih hg' hn.2 (fun _ => hs)
            have hct : isControl t = true := by rw [← (h hc).control]; exact h6
            simp only [regiven, h1, if_true, List.singleton_append, List.length_cons]
            have hle := ih'.1 h2
            rw [h5] at hle
            refine ⟨fun _ => by omega, by simp, (fun hx => by rw [hct] at hx; cases hx), ?_⟩
            intro r hr
            rcases List.mem_cons.1 hr with rfl | hr
            · exact (h hc).prepare _
            · exact ih'.2.2.2 r hr
        · have hstep : stepS s (.irq i) = (s, []) := by simp [stepS, hp]
          have ha : again s i = false := by simp [again, hp]
          rw [hstep] at hn hg'
          have ih' := ih hg' hn.2 h
          simp only [regivens, hstep, regiven, ha, Bool.false_eq_true, if_false, List.nil_append]
          exact ⟨fun _ => ih'.1 hc, by simp, ih'.2.2.1, ih'.2.2.2⟩
      · obtain ⟨k1, k2, k3, _⟩ := cur_keeps s e hg hc (eq_false_of_ne_true hirq)
        have hr : regiven s e = [] := by
          cases e <;> first | rfl | exact absurd rfl hirq
        have ih' := ih hg' hn.2 (by rw [k2]; exact fun _ => h hc)
        simp only [regivens, hr, List.nil_append]
        rw [k3] at ih'
        exact ⟨fun _ => ih'.1 k1, by simp, ih'.2.2.1, ih'.2.2.2⟩

/-- A telegram that the main program hands over is handed over again at most three times before the main
program hands over the next one, and only if it is a connection control telegram; it is the same telegram
each time. -/
theorem C104_handed_over_again (es fs : List SEv) (hp : (runS bootS es).1.pc = .point)
    (hn : givens (stepS (runS bootS es).1 .point).1 fs = []) :
    (regivens (stepS (runS bootS es).1 .point).1 fs).length ≤ 3 ∧
    (isControl (runS bootS es).1.buf = false →
      regivens (stepS (runS bootS es).1 .point).1 fs = []) ∧
    ∀ r ∈ regivens (stepS (runS bootS es).1 .point).1 fs, SameTelegram (runS bootS es).1.buf r := by
  have hg := runS_good boot_good es
  generalize (runS bootS es).1 = s at *
  have hg' := stepS_good hg .point
  have h1 : (stepS s .point).1.cur = true := by simp [stepS, hp]
  have h2 : (stepS s .point).1.buf = s.buf := by simp [stepS, hp]
  have := regivens_bound (t := s.buf) hg' fs hn (fun _ => by rw [h2]; exact .refl _)
  have h3 := this.1 h1
  exact ⟨by omega, this.2.2.1, this.2.2.2⟩

example := C104_handed_over_again eFill (.kick :: eSilence 320) (by decide +kernel) (by decide +kernel)

-- the telegram is handed over again after the fourth unacknowledged transmission
example : (regivens (stepS (runS bootS eFill).1 .point).1 (.kick :: eSilence 320)).length = 1 := by
  decide +kernel

/-- What the code does with the repeat flag: a telegram handed over as a first transmission (flag set) is
handed over again with the flag already cleared, so that the first transmission of the new attempt is
marked as a repetition. -/
theorem C104_repeat_flag_kept :
    ∃ es fs, (runS bootS es).1.pc = .point ∧ givens (stepS (runS bootS es).1 .point).1 fs = [] ∧
      (runS bootS es).1.buf 0 &&& 0x20#8 ≠ 0#8 ∧
      ∃ r ∈ regivens (stepS (runS bootS es).1 .point).1 fs, r 0 &&& 0x20#8 = 0#8 := by
  refine ⟨eFill, .kick :: eSilence 320, by decide +kernel, by decide +kernel, by decide +kernel, ?_⟩
  have h : (regivens (stepS (runS bootS eFill).1 .point).1 (.kick :: eSilence 320)).any
      (fun r => r 0 &&& 0x20#8 == 0#8) = true := by decide +kernel
  simpa using List.any_eq_true.1 h

theorem main_out (s : Shared) (e : SEv) (he : e.isIrq = false) : (stepS s e).2 = [] := by
  cases e <;> simp only [stepS]
  case irq => cases he
  case kick =>
    split
    · simp only [Shared.call, step]; split <;> rfl
    · rfl
  case high => split <;> rfl
  case low => split <;> rfl
  case sum => split <;> rfl
  case discard => rfl
  case pause => simp only [Shared.call, step]; split <;> rfl
  case resume => simp only [Shared.call, step]; split <;> rfl
  case maxRetries => rfl
  case maxBusyRetries => rfl
  all_goals split <;> rfl

theorem count_reported {l : List Out} (h : reported l = none) : count (.finished false) l = 0 := by
  induction l with
  | nil => rfl
  | cons o l ih =>
    cases o <;> simp only [reported] at h <;>
      first | cases h | (have := ih h; simpa [count] using this)

theorem finished_none {s : Shared} (hg : SGood s) (fs : List SEv) (hn : givens s fs = [])
    (hc : s.cur = false) : count (.finished false) (runS s fs).2 = 0 := by
  induction fs generalizing s with
  | nil => rfl
  | cons e fs ih =>
    simp only [givens, List.append_eq_nil_iff] at hn
    have ih' := ih (stepS_good hg e) hn.2 (cur_nil s e hg hc hn.1)
    simp only [runS]
    rw [count_append, ih', Nat.add_zero]
    by_cases hirq : e.isIrq = true
    · cases e <;> first | cases hirq | skip
      rename_i i
      cases hp : s.paused
      · have hstep : stepS s (.irq i) = isrS i s := by simp [stepS, hp]
        rw [hstep]
        cases (isrS_step i s hg.link.inv.inv hg.link.err hp).1 with
        | idle h0 h1 h2 h3 h4 h5 h6 h7 h8 => exact count_reported h8
        | keep h0 => rw [hc] at h0; cases h0
        | done ok h0 => rw [hc] at h0; cases h0
        | again h0 => rw [hc] at h0; cases h0
      · have hstep : stepS s (.irq i) = (s, []) := by simp [stepS, hp]
        rw [hstep]; rfl
    · rw [main_out s e (eq_false_of_ne_true hirq)]; rfl

theorem given_up {s : Shared} (hg : SGood s) (fs : List SEv) (hn : givens s fs = [])
    (hc : s.cur = true) (hk : isControl s.buf = true) (hf : (runS s fs).1.cur = false) :
    .finished true ∈ (runS s fs).2 ∨
      s.rep + (regivens s fs).length = 3 ∧ s.rep + count (.finished false) (runS s fs).2 = 4 := by
  induction fs generalizing s with
  | nil => rw [show (runS s []).1 = s from rfl, hc] at hf; cases hf
  | cons e fs ih =>
    simp only [givens, List.append_eq_nil_iff] at hn
    have hg' := stepS_good hg e
    simp only [runS] at hf ⊢
    rw [count_append]
    by_cases hirq : e.isIrq = true
    · cases e <;> first | cases hirq | skip
      rename_i i
      cases hp : s.paused
      · have hstep : stepS s (.irq i) = isrS i s := by simp [stepS, hp]
        have hq := (isrS_step i s hg.link.inv.inv hg.link.err hp).1
        rw [hstep] at hn hg' hf ⊢
        simp only [regivens, hstep]
        cases hq with
        | idle h0 => rw [hc] at h0; cases h0
        | keep h0 h1 h2 h3 h4 h5 h6 h7 h8 =>
          have hk' : isControl (isrS i s).1.buf = true := by
            rcases h3 with h3 | h3 <;> rw [h3]
            · exact hk
            · rw [marked_control]; exact hk
          have hz := count_reported h8
          simp only [regiven, h1, Bool.false_eq_true, if_false, List.nil_append]
          rcases ih hg' hn.2 h2 hk' hf with h | ⟨h, h'⟩
          · exact Or.inl (List.mem_append_right _ h)
          · rw [h5] at h h'
            exact Or.inr ⟨h, by omega⟩
        | done ok h0 h1 h2 h3 h4 h5 h6 h7 h8 =>
          cases ok
          · right
            have hr : s.rep = 3 := by
              have := hg.own.rep
              by_cases hlt : s.rep < 3
              · exfalso
                have : again s i = true := by
                  unfold again
                  rw [hp, h8, hk]
                  simp [reported, hlt]
                rw [h1] at this; cases this
              · omega
            have hq := regivens_bound (t := s.buf) hg' fs hn.2 (by rw [h2]; simp)
            have hz := finished_none hg' fs hn.2 h2
            rw [h7, h8]
            simp only [regiven, h1, Bool.false_eq_true, if_false, List.nil_append, hq.2.1 h2]
            refine ⟨by rw [hr]; rfl, ?_⟩
            rw [hz, hr]
            rfl
          · left
            rw [h7, h8]
            simp
        | again h0 h1 h2 h3 h4 h5 h6 h7 h8 h9 =>
          have hk' : isControl (isrS i s).1.buf = true := by rw [h3, prepare_control]; exact h6
          have hz : count (.finished false) (isrS i s).2 = 1 := by
            rcases h9 with ⟨_, q, _⟩ | ⟨_, q, _⟩ <;> rw [q] <;> rfl
          simp only [regiven, h1, if_true, List.singleton_append, List.length_cons]
          rcases ih hg' hn.2 h2 hk' hf with h | ⟨h, h'⟩
          · exact Or.inl (List.mem_append_right _ h)
          · rw [h5] at h h'
            exact Or.inr ⟨by omega, by omega⟩
      · have hstep : stepS s (.irq i) = (s, []) := by simp [stepS, hp]
        have ha : again s i = false := by simp [again, hp]
        rw [hstep] at hn hg' hf ⊢
        dsimp only at hf ⊢
        simp only [regivens, hstep, regiven, ha, Bool.false_eq_true, if_false, List.nil_append]
        rcases ih hg' hn.2 hc hk hf with h | ⟨h, h'⟩
        · exact Or.inl (by simpa using h)
        · exact Or.inr ⟨h, by rw [show count (.finished false) [] = 0 from rfl, Nat.zero_add]; exact h'⟩
    · obtain ⟨k1, k2, k3, k4⟩ := cur_keeps s e hg hc (eq_false_of_ne_true hirq)
      have hr : regiven s e = [] := by
        cases e <;> first | rfl | exact absurd rfl hirq
      simp only [regivens, hr, List.nil_append]
      rw [main_out s e (eq_false_of_ne_true hirq)]
      rcases ih hg' hn.2 k1 (by rw [k2]; exact hk) hf with h | ⟨h, h'⟩
      · exact Or.inl (by simpa using h)
      · rw [k3] at h h'
        exact Or.inr ⟨h, by rw [show count (.finished false) [] = 0 from rfl]; omega⟩

/-- A connection control telegram is not given up early: when the link layer gives the buffer back for
good, either success was reported, or the telegram was handed over four times in all and each time failure
was reported. -/
theorem C104_not_given_up (es fs : List SEv) (hp : (runS bootS es).1.pc = .point)
    (hn : givens (stepS (runS bootS es).1 .point).1 fs = [])
    (hk : isControl (runS bootS es).1.buf = true)
    (hf : (runS (stepS (runS bootS es).1 .point).1 fs).1.cur = false) :
    .finished true ∈ (runS (stepS (runS bootS es).1 .point).1 fs).2 ∨
      (regivens (stepS (runS bootS es).1 .point).1 fs).length = 3 ∧
      count (.finished false) (runS (stepS (runS bootS es).1 .point).1 fs).2 = 4 := by
  have hg := runS_good boot_good es
  generalize (runS bootS es).1 = s at *
  have hg' := stepS_good hg .point
  have h1 : (stepS s .point).1.cur = true := by simp [stepS, hp]
  have h2 : (stepS s .point).1.buf = s.buf := by simp [stepS, hp]
  have h3 : (stepS s .point).1.rep = 0 := by
    have h0 : s.cur = false := by
      cases hc : s.cur
      · rfl
      · rcases hg.own.pcs hc with h | h <;> rw [hp] at h <;> cases h
    have : s.rep = 0 := by
      have := hg.own.repc
      rcases Nat.eq_zero_or_pos s.rep with h | h
      · exact h
      · rw [(this h).1] at h0; cases h0
    simpa [stepS, hp] using this
  have h := given_up hg' fs hn h1 (by rw [h2]; exact hk) hf
  rw [h3] at h
  simpa using h

-- with the retry limits set to 0
example := C104_not_given_up ([.maxRetries 0, .maxBusyRetries 0] ++ eFill) (.kick :: eSilence 320) (by decide +kernel) (by decide +kernel)
  (by decide +kernel) (by decide +kernel)

end Verif.Bus
