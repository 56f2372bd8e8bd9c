import Verif.Timer.Model

/-!
# C73: configuration of the timers

The registers are compared with the LPC11xx manual: MCR and CCR have three bits per channel, EMR two bits per channel from bit 4 on (and the
levels of the outputs in bits 0 to 3), CTCR: bits 1:0 edges counted, 3:2 input, 4 clearing enabled, 7:5 clearing input and edge.
-/

namespace Verif.Timer

open Verif

theorem field_same (v x M : U32) (o : Nat) (hx : x &&& M = x) (hM : (M <<< o) >>> o = M) :
    (v &&& ~~~(M <<< o) ||| x <<< o) >>> o &&& M = x := by
  apply BitVec.eq_of_getLsbD_eq
  intro i hi
  have h1 := congrArg (fun b : U32 => b.getLsbD i) hx
  have h2 := congrArg (fun b : U32 => b.getLsbD i) hM
  simp only [BitVec.getLsbD_and, BitVec.getLsbD_or, BitVec.getLsbD_not, BitVec.getLsbD_ushiftRight, BitVec.getLsbD_shiftLeft] at h1 h2 ⊢
  rw [Nat.add_sub_cancel_left] at *
  by_cases hq : o + i < 32
  · simp only [hq, decide_true, Bool.true_and, Nat.not_lt.2 (Nat.le_add_right o i), decide_false, Bool.not_false, Bool.and_true] at *
    revert h1 h2
    cases x.getLsbD i <;> cases M.getLsbD i <;> simp
  · simp only [hq, decide_false, Bool.false_and] at h2
    rw [← h2] at h1 ⊢
    simpa using h1

theorem field_other (v x M N : U32) (o p : Nat) (hx : x &&& M = x) (hd : M <<< o &&& N <<< p = 0#32) :
    (v &&& ~~~(M <<< o) ||| x <<< o) >>> p &&& N = v >>> p &&& N := by
  apply BitVec.eq_of_getLsbD_eq
  intro i hi
  have h1 := congrArg (fun b : U32 => b.getLsbD (p + i - o)) hx
  have h2 := congrArg (fun b : U32 => b.getLsbD (p + i)) hd
  simp only [BitVec.getLsbD_and, BitVec.getLsbD_or, BitVec.getLsbD_not, BitVec.getLsbD_ushiftRight, BitVec.getLsbD_shiftLeft,
    BitVec.getLsbD_zero, Nat.add_sub_cancel_left] at h1 h2 ⊢
  by_cases hq : p + i < 32
  · simp only [hq, decide_true, Bool.true_and, Nat.not_lt.2 (Nat.le_add_right p i), decide_false, Bool.not_false, Bool.and_true] at *
    revert h1 h2
    cases (decide (p + i < o)) <;> cases N.getLsbD i <;> cases x.getLsbD (p + i - o) <;> cases M.getLsbD (p + i - o) <;> simp
  · have : v.getLsbD (p + i) = false := BitVec.getLsbD_of_ge _ _ (by omega)
    simp [hq, this]

/-- **C73 (part).** Match channels: the mode set is the mode read (interrupt, reset, stop, and what happens to the pin), whatever was set before;
the other channels and the levels of the outputs are unchanged. -/
theorem C73_match (r : Regs) (mode : U32) (a b : Nat) (ha : a < 4) (hb : b < 4) :
    getMatchMode (setMatchMode r a mode) a = mode &&& 0x37#32 ∧
    (b ≠ a → getMatchMode (setMatchMode r a mode) b = getMatchMode r b) ∧
    (setMatchMode r a mode).emr &&& 0xf#32 = r.emr &&& 0xf#32 ∧
    (setMatchMode r a mode).ccr = r.ccr ∧ (setMatchMode r a mode).ctcr = r.ctcr ∧ (setMatchMode r a mode).pwmc = r.pwmc := by
  have hm : ∀ (x M : U32), (x &&& M) &&& M = x &&& M := by
    intro x M; rw [BitVec.and_assoc, BitVec.and_self]
  have hA : a = 0 ∨ a = 1 ∨ a = 2 ∨ a = 3 := by omega
  have hB : b = 0 ∨ b = 1 ∨ b = 2 ∨ b = 3 := by omega
  refine ⟨?_, ?_, ?_, rfl, rfl, rfl⟩
  · have e1 : (setMatchMode r a mode).mcr >>> (a * 3) &&& 7#32 = mode &&& 7#32 :=
      field_same _ _ _ _ (hm _ _) (by rcases hA with rfl | rfl | rfl | rfl <;> decide)
    have e2 : (setMatchMode r a mode).emr >>> (a * 2) &&& 0x30#32 = mode &&& 0x30#32 :=
      field_same _ _ _ _ (hm _ _) (by rcases hA with rfl | rfl | rfl | rfl <;> decide)
    unfold getMatchMode
    rw [e1, e2]
    apply BitVec.eq_of_getLsbD_eq
    intro i hi
    simp only [BitVec.getLsbD_and, BitVec.getLsbD_or]
    rw [← Bool.and_or_distrib_left, ← BitVec.getLsbD_or]
    rfl
  · intro hne
    have e1 : (setMatchMode r a mode).mcr >>> (b * 3) &&& 7#32 = r.mcr >>> (b * 3) &&& 7#32 :=
      field_other _ _ _ _ _ _ (hm _ _) (by
        rcases hA with rfl | rfl | rfl | rfl <;> rcases hB with rfl | rfl | rfl | rfl <;> first | decide | exact absurd rfl hne)
    have e2 : (setMatchMode r a mode).emr >>> (b * 2) &&& 0x30#32 = r.emr >>> (b * 2) &&& 0x30#32 :=
      field_other _ _ _ _ _ _ (hm _ _) (by
        rcases hA with rfl | rfl | rfl | rfl <;> rcases hB with rfl | rfl | rfl | rfl <;> first | decide | exact absurd rfl hne)
    unfold getMatchMode
    rw [e1, e2]
  · have := field_other r.emr (mode &&& 0x30#32) 0x30#32 0xf#32 (a * 2) 0 (hm _ _)
      (by rcases hA with rfl | rfl | rfl | rfl <;> decide)
    rw [BitVec.ushiftRight_zero, BitVec.ushiftRight_zero] at this
    exact this

/-- **C73 (part).** Capture channels: the mode set (interrupt, edges) is the mode read; the other channel is unchanged. -/
theorem C73_capture (r : Regs) (mode : U32) (a b : Nat) (ha : a < 2) (hb : b < 2) :
    getCaptureMode (setCaptureMode r a mode) a = mode &&& 0xc1#32 ∧
    (b ≠ a → getCaptureMode (setCaptureMode r a mode) b = getCaptureMode r b) ∧
    (setCaptureMode r a mode).mcr = r.mcr ∧ (setCaptureMode r a mode).emr = r.emr ∧ (setCaptureMode r a mode).ctcr = r.ctcr := by
  obtain ⟨val, hval, hdef⟩ : ∃ val : U32, (setCaptureMode r a mode).ccr = r.ccr &&& ~~~(7#32 <<< (a * 3)) ||| val <<< (a * 3) ∧
      val = (if mode &&& 1#32 ≠ 0#32 then mode >>> 6 &&& 3#32 ||| 4#32 else mode >>> 6 &&& 3#32) := ⟨_, rfl, rfl⟩
  have h7 : val &&& 7#32 = val := by
    rw [hdef]
    apply BitVec.eq_of_getLsbD_eq
    intro i hi
    have : ∀ i < 32, (3#32 : U32).getLsbD i = true → (7#32 : U32).getLsbD i = true := by decide
    have t3 := this i hi
    have : ∀ i < 32, (4#32 : U32).getLsbD i = true → (7#32 : U32).getLsbD i = true := by decide
    have t4 := this i hi
    split
    · simp only [BitVec.getLsbD_and, BitVec.getLsbD_or]
      revert t3 t4
      cases (3#32 : U32).getLsbD i <;> cases (4#32 : U32).getLsbD i <;> cases (7#32 : U32).getLsbD i <;> simp
    · simp only [BitVec.getLsbD_and]
      revert t3
      cases (3#32 : U32).getLsbD i <;> cases (7#32 : U32).getLsbD i <;> simp
  have hA : a = 0 ∨ a = 1 := by omega
  have hB : b = 0 ∨ b = 1 := by omega
  refine ⟨?_, ?_, rfl, rfl, rfl⟩
  · have e : (setCaptureMode r a mode).ccr >>> (a * 3) &&& 7#32 = val := by
      rw [hval]
      exact field_same _ _ _ _ h7 (by rcases hA with rfl | rfl <;> decide)
    unfold getCaptureMode
    rw [e, hdef]
    have hbit : mode &&& 1#32 ≠ 0#32 ↔ mode.getLsbD 0 = true := by
      constructor
      · intro h
        cases hb0 : mode.getLsbD 0 with
        | true => rfl
        | false =>
          refine absurd ?_ h
          apply BitVec.eq_of_getLsbD_eq
          intro i hi
          rcases Nat.eq_zero_or_pos i with rfl | hp
          · rw [BitVec.getLsbD_and, hb0]; rfl
          · have : (1#32 : U32).getLsbD i = false := by
              have : ∀ i < 32, 0 < i → (1#32 : U32).getLsbD i = false := by decide
              exact this i hi hp
            simp [this]
      · intro h q
        have := congrArg (fun b : U32 => b.getLsbD 0) q
        rw [BitVec.getLsbD_and, h] at this
        exact absurd this (by decide)
    have tbl : ∀ i < 32, (0xc1#32 : U32).getLsbD i = (decide (i = 0) || decide (i = 6) || decide (i = 7)) ∧
        (3#32 : U32).getLsbD i = (decide (i = 0) || decide (i = 1)) ∧ (0xc0#32 : U32).getLsbD i = (decide (i = 6) || decide (i = 7)) ∧
        (1#32 : U32).getLsbD i = decide (i = 0) ∧ (4#32 : U32).getLsbD i = decide (i = 2) := by decide
    by_cases h1 : mode &&& 1#32 ≠ 0#32
    · rw [if_pos h1]
      have hs : ((mode >>> 6 &&& 3#32 ||| 4#32) <<< 6 &&& 0x100#32) ≠ 0#32 := by
        intro q
        have := congrArg (fun b : U32 => b.getLsbD 8) q
        simp at this
      dsimp only
      rw [if_pos hs]
      apply BitVec.eq_of_getLsbD_eq
      intro i hi
      have t := tbl i hi
      have t6 := fun h : 6 ≤ i => tbl (i - 6) (by omega)
      simp only [BitVec.getLsbD_and, BitVec.getLsbD_or, BitVec.getLsbD_shiftLeft, BitVec.getLsbD_ushiftRight, t.1, t.2.2.1, t.2.2.2.1]
      rcases (show i = 0 ∨ i = 6 ∨ i = 7 ∨ (i ≠ 0 ∧ i ≠ 6 ∧ i ≠ 7) by omega) with rfl | rfl | rfl | ⟨n0, n6, n7⟩
      · rw [hbit.1 h1]; simp
      · simp
      · simp
      · simp [n0, n6, n7]
    · rw [if_neg h1]
      have h0 : mode.getLsbD 0 = false := by
        cases hb0 : mode.getLsbD 0 with
        | false => rfl
        | true => exact absurd (hbit.2 hb0) h1
      have hs : (mode >>> 6 &&& 3#32) <<< 6 &&& 0x100#32 = 0#32 := by
        apply BitVec.eq_of_getLsbD_eq
        intro i hi
        have : ∀ i < 32, (0x100#32 : U32).getLsbD i = decide (i = 8) := by decide
        simp only [BitVec.getLsbD_and, BitVec.getLsbD_shiftLeft, this i hi]
        by_cases h8 : i = 8
        · subst h8; simp
        · simp [h8]
      dsimp only
      rw [if_neg (fun q => q hs)]
      apply BitVec.eq_of_getLsbD_eq
      intro i hi
      have t := tbl i hi
      simp only [BitVec.getLsbD_and, BitVec.getLsbD_or, BitVec.getLsbD_shiftLeft, BitVec.getLsbD_ushiftRight, t.1]
      rcases (show i = 0 ∨ i = 6 ∨ i = 7 ∨ (i ≠ 0 ∧ i ≠ 6 ∧ i ≠ 7) by omega) with rfl | rfl | rfl | ⟨n0, n6, n7⟩
      · rw [h0]; simp
      · simp
      · simp
      · have : (3#32 : U32).getLsbD (i - 6) = (decide (i - 6 = 0) || decide (i - 6 = 1)) := (tbl (i - 6) (by omega)).2.1
        rw [this]
        simp only [n0, n6, n7, decide_false, Bool.or_false, Bool.and_false]
        by_cases hl : i < 6
        · simp [hl]
        · simp [show ¬ i - 6 = 0 by omega, show ¬ i - 6 = 1 by omega]
  · intro hne
    have e : (setCaptureMode r a mode).ccr >>> (b * 3) &&& 7#32 = r.ccr >>> (b * 3) &&& 7#32 := by
      rw [hval]
      exact field_other _ _ _ _ _ _ h7 (by
        rcases hA with rfl | rfl <;> rcases hB with rfl | rfl <;> first | decide | exact absurd rfl hne)
    unfold getCaptureMode
    rw [e]

/-! ## Flags, PWM channels and clock -/

theorem shl_bit (c : U32) (o n i : Nat) (hc : c = 1#32 <<< o) (h : o + n < 32) : (c <<< n).getLsbD i = decide (i = o + n) := by
  subst hc
  rw [BitVec.getLsbD_shiftLeft, BitVec.getLsbD_shiftLeft]
  by_cases q : i = o + n
  · subst q
    simp [show o + n < 32 from h, show o < 32 by omega]
  · simp only [q, decide_false]
    by_cases a : i < n
    · simp [a]
    · by_cases b : i - n < o
      · simp [b]
      · have : ¬ (i - n - o = 0) := by omega
        simp [BitVec.getLsbD_one, this]

theorem and_bit_ne (v : U32) (c : U32) (k : Nat) (hk : k < 32) (hc : ∀ i, c.getLsbD i = decide (i = k)) :
    decide (v &&& c ≠ 0#32) = v.getLsbD k := by
  cases h : v.getLsbD k with
  | true =>
    rw [decide_eq_true_eq]
    intro q
    have := congrArg (fun b : U32 => b.getLsbD k) q
    simp only [BitVec.getLsbD_and, h, hc] at this
    simp at this
  | false =>
    rw [decide_eq_false_iff_not, Decidable.not_not]
    apply BitVec.eq_of_getLsbD_eq
    intro i hi
    rw [BitVec.getLsbD_and, hc, BitVec.getLsbD_zero]
    by_cases q : i = k
    · subst q; rw [h]; rfl
    · simp [q]

/-- **C73 (part).** Acknowledging the event of one channel clears its flag and no other one: no event of another channel is lost. -/
theorem C73_flags (r : Regs) (a b : Nat) (ha : a < 4) (hb : b < 4) :
    matchFlag (resetMatchFlag r a) a = false ∧ captureFlag (resetCaptureFlag r a) a = false ∧
    (b ≠ a → matchFlag (resetMatchFlag r a) b = matchFlag r b ∧ captureFlag (resetCaptureFlag r a) b = captureFlag r b) ∧
    captureFlag (resetMatchFlag r a) b = captureFlag r b ∧ matchFlag (resetCaptureFlag r a) b = matchFlag r b := by
  have m1 : ∀ n < 4, ∀ i, (1#32 <<< n : U32).getLsbD i = decide (i = n) := fun n hn i => by
    rw [shl_bit 1#32 0 n i rfl (by omega), Nat.zero_add]
  have m2 : ∀ n < 4, ∀ i, (16#32 <<< n : U32).getLsbD i = decide (i = 4 + n) := fun n hn i =>
    shl_bit 16#32 4 n i rfl (by omega)
  have f1 : ∀ (x : Regs) n, n < 4 → matchFlag x n = x.ir.getLsbD n := fun x n hn => and_bit_ne _ _ n (by omega) (m1 n hn)
  have f2 : ∀ (x : Regs) n, n < 4 → captureFlag x n = x.ir.getLsbD (4 + n) := fun x n hn => and_bit_ne _ _ (4 + n) (by omega) (m2 n hn)
  have g1 : ∀ i < 32, (resetMatchFlag r a).ir.getLsbD i = (r.ir.getLsbD i && !decide (i = a)) := fun i hi => by
    show (r.ir &&& ~~~(1#32 <<< a)).getLsbD i = _
    rw [BitVec.getLsbD_and, BitVec.getLsbD_not, m1 a ha]
    simp [hi]
  have g2 : ∀ i < 32, (resetCaptureFlag r a).ir.getLsbD i = (r.ir.getLsbD i && !decide (i = 4 + a)) := fun i hi => by
    show (r.ir &&& ~~~(16#32 <<< a)).getLsbD i = _
    rw [BitVec.getLsbD_and, BitVec.getLsbD_not, m2 a ha]
    simp [hi]
  simp only [f1 _ _ ha, f1 _ _ hb, f2 _ _ ha, f2 _ _ hb]
  rw [g1 a (by omega), g1 b (by omega), g1 (4 + b) (by omega), g2 (4 + a) (by omega), g2 b (by omega), g2 (4 + b) (by omega)]
  refine ⟨by simp, by simp, fun hne => ⟨by simp [hne], by simp [hne]⟩, by simp [show ¬ 4 + b = a by omega],
    by simp [show ¬ b = 4 + a by omega]⟩

/-- **C73 (part).** A PWM channel is switched on and off alone; `begin` and `end` of a timer (16-bit 0, 1 and 32-bit 0, 1) switch its own clock
(SYSAHBCLKCTRL bits 7 to 10) and no other, and a timer just started has no match or capture action configured. -/
theorem C73_pwm_clock (r : Regs) (ch num k : Nat) (hc : ch < 4) (hn : num < 4) (hk : k < 32) :
    (pwmEnable r ch).pwmc.getLsbD k = (r.pwmc.getLsbD k || decide (k = ch)) ∧
    (pwmDisable r ch).pwmc.getLsbD k = (r.pwmc.getLsbD k && !decide (k = ch)) ∧
    (begin r num).ahbclk.getLsbD k = (r.ahbclk.getLsbD k || decide (k = 7 + num)) ∧
    («end» r num).ahbclk.getLsbD k = (r.ahbclk.getLsbD k && !decide (k = 7 + num)) ∧
    (∀ b < 4, getMatchMode (begin r num) b = 0#32 ∧ getCaptureMode (begin r num) b = 0#32) := by
  have m : ∀ n < 32, ∀ i, (1#32 <<< n : U32).getLsbD i = decide (i = n) := fun n hn i => by
    rw [shl_bit 1#32 0 n i rfl (by omega), Nat.zero_add]
  refine ⟨?_, ?_, ?_, ?_, ?_⟩
  · show (r.pwmc ||| 1#32 <<< ch).getLsbD k = _
    rw [BitVec.getLsbD_or, m ch (by omega)]
  · show (r.pwmc &&& ~~~(1#32 <<< ch)).getLsbD k = _
    rw [BitVec.getLsbD_and, BitVec.getLsbD_not, m ch (by omega)]
    simp [hk]
  · show (r.ahbclk ||| 1#32 <<< (7 + num)).getLsbD k = _
    rw [BitVec.getLsbD_or, m (7 + num) (by omega)]
  · show (r.ahbclk &&& ~~~(1#32 <<< (7 + num))).getLsbD k = _
    rw [BitVec.getLsbD_and, BitVec.getLsbD_not, m (7 + num) (by omega)]
    simp [hk]
  · intro b hb
    rcases (show b = 0 ∨ b = 1 ∨ b = 2 ∨ b = 3 by omega) with rfl | rfl | rfl | rfl <;> exact ⟨by simp [getMatchMode, begin], by simp [getCaptureMode, begin]⟩

/-! ## Counter mode -/

/-- CTCR as the manual wants it: bit 0 counts rising, bit 1 falling edges, bits 3:2 the input; bit 4 enables clearing, bits 7:5 say by which input
and edge. -/
def Spec.ctcr (rising falling : Bool) (input : Nat) (clear : Option (Nat × Bool)) : Nat :=
  rising.toNat + 2 * falling.toNat + 4 * input +
  match clear with
  | none => 0
  | some (input, falling) => 16 + 64 * input + 32 * falling.toNat

/-- The argument for an input (CAP0, CAP1) and edges (RISING_EDGE 0x40, FALLING_EDGE 0x80). -/
def Spec.arg (input : Nat) (rising falling : Bool) : U32 :=
  BitVec.ofNat 32 (input + 0x40 * rising.toNat + 0x80 * falling.toNat)

/-- **C73 (part).** The counter counts the edges of the input asked for, and is not cleared (all eight modes). -/
theorem C73_counter (r : Regs) (rising falling : Bool) (input : Nat) (hi : input < 2) :
    (counterMode r (Spec.arg input rising falling) 0#32).ctcr = BitVec.ofNat 32 (Spec.ctcr rising falling input none) := by
  rcases (show input = 0 ∨ input = 1 by omega) with rfl | rfl <;> cases rising <;> cases falling <;> rfl

/-- **C73 (part, finding).** Clearing is as asked for only for the falling edge of CAP1: the code tests for any of the bits instead of all of
them, so asking for the falling edge of CAP0 or the rising edge of CAP1 selects the falling edge of CAP1, and asking for the rising edge of CAP0
selects the rising edge of CAP1. -/
theorem C73_clear_partial (r : Regs) (rising falling : Bool) (input cin : Nat) (hi : input < 2) (hc : cin < 2) (cfall : Bool) :
    (counterMode r (Spec.arg input rising falling) (Spec.arg cin (!cfall) cfall)).ctcr =
      BitVec.ofNat 32 (Spec.ctcr rising falling input (some (1, decide (cin = 1) || cfall))) := by
  rcases (show input = 0 ∨ input = 1 by omega) with rfl | rfl <;> rcases (show cin = 0 ∨ cin = 1 by omega) with rfl | rfl <;>
    cases rising <;> cases falling <;> cases cfall <;> rfl

/-- **C73 (part, finding).** So it is right in exactly one of the four cases. -/
theorem C73_clear_right_iff (r : Regs) (rising falling : Bool) (input cin : Nat) (hi : input < 2) (hc : cin < 2) (cfall : Bool) :
    (counterMode r (Spec.arg input rising falling) (Spec.arg cin (!cfall) cfall)).ctcr =
      BitVec.ofNat 32 (Spec.ctcr rising falling input (some (cin, cfall))) ↔ cin = 1 ∧ cfall = true := by
  rw [C73_clear_partial r rising falling input cin hi hc cfall]
  rcases (show input = 0 ∨ input = 1 by omega) with rfl | rfl <;> rcases (show cin = 0 ∨ cin = 1 by omega) with rfl | rfl <;>
    cases rising <;> cases falling <;> cases cfall <;> decide

/-! ## A case -/

/-- Channel 0 toggles its pin, channel 3 resets the timer and interrupts: both are read back. -/
example : let r := setMatchMode (setMatchMode ⟨0, 0, 0xf, 0, 0, 0, 0⟩ 3 0x03#32) 0 0x30#32
    getMatchMode r 0 = 0x30#32 ∧ getMatchMode r 3 = 3#32 ∧ r.emr = 0x3f#32 ∧ r.mcr = 0x600#32 := by decide

example : getCaptureMode (setCaptureMode ⟨0, 0, 0, 0, 0, 0, 0⟩ 1 0xc1#32) 1 = 0xc1#32 := by decide

/-- The documented example: `counterMode(CAP0|RISING_EDGE, CAP1|FALLING_EDGE)`. -/
example : (counterMode ⟨0, 0, 0, 0, 0, 0, 0⟩ 0x40#32 0x81#32).ctcr = 0x71#32 ∧ Spec.ctcr true false 0 (some (1, true)) = 0x71 := by decide

end Verif.Timer
