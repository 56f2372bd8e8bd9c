import Verif.Util.Text

/-!
# C35: printing and parsing numbers; C54: reading until / finding text in a stream
-/

namespace Verif.Text

/-- Specification: the value of a digit character (`0`-`9`, `A`-`Z`). -/
def digitVal (c : Byte) : Option Nat :=
  if 48 ≤ c.toNat ∧ c.toNat ≤ 57 then some (c.toNat - 48)
  else if 65 ≤ c.toNat ∧ c.toNat ≤ 90 then some (c.toNat - 55)
  else none

/-- Specification: the number a text denotes in base `b`, most significant digit first; `none` if some
character is not a digit of that base. -/
def textVal (b : Nat) (s : List Byte) : Option Nat :=
  s.foldl (fun acc c => match acc, digitVal c with
    | some v, some d => if d < b then some (v * b + d) else none
    | _, _ => none) (some 0)

theorem textVal_nil (b : Nat) : textVal b [] = some 0 := rfl

/-! ## print -/

theorem digitVal_digitChar (d : Nat) (h : d < 36) : digitVal (digitChar d) = some d := by
  have : ∀ d : Fin 36, digitVal (digitChar d) = some d.val := by decide +kernel
  exact this ⟨d, h⟩

/-- Accumulating form. -/
theorem foldl_textVal (b : Nat) (s : List Byte) (acc : Nat) (v : Nat)
    (h : textVal b s = some v) :
    s.foldl (fun acc c => match acc, digitVal c with
      | some v, some d => if d < b then some (v * b + d) else none
      | _, _ => none) (some acc) = some (acc * b ^ s.length + v) := by
  suffices H : ∀ (s : List Byte) (a a' v : Nat), s.foldl (fun acc c => match acc, digitVal c with
      | some v, some d => if d < b then some (v * b + d) else none
      | _, _ => none) (some a) = some (a * b ^ s.length + v) →
      s.foldl (fun acc c => match acc, digitVal c with
      | some v, some d => if d < b then some (v * b + d) else none
      | _, _ => none) (some a') = some (a' * b ^ s.length + v) by
    exact H s 0 acc v (by simpa [textVal] using h)
  have hnone : ∀ s : List Byte, s.foldl (fun acc c => match acc, digitVal c with
      | some v, some d => if d < b then some (v * b + d) else none
      | _, _ => none) (none : Option Nat) = none := by
    intro s
    induction s with
    | nil => rfl
    | cons c s ih => rw [List.foldl_cons]; exact ih
  intro s
  induction s with
  | nil => intro a a' v h; simp at h ⊢; omega
  | cons c s ih =>
    intro a a' v h
    rw [List.foldl_cons] at h ⊢
    cases hd : digitVal c with
    | none => rw [hd] at h; simp only [hnone] at h; exact absurd h (by simp)
    | some d =>
      rw [hd] at h
      dsimp only at h ⊢
      by_cases hb : d < b
      · rw [if_pos hb] at h ⊢
        rw [List.length_cons, Nat.pow_succ] at h ⊢
        have e : ∀ x, (x * b + d) * b ^ s.length + v = x * (b ^ s.length * b) + (d * b ^ s.length + v) := by
          intro x; rw [Nat.add_mul, Nat.mul_assoc, Nat.mul_comm b]; omega
        have h2 : ∃ w, some (a * (b ^ s.length * b) + v) = some ((a * b + d) * b ^ s.length + w) ∧ v = d * b ^ s.length + w := by
          -- the fold is at least its leading term
          have hge : ∀ (s : List Byte) (x y : Nat), s.foldl (fun acc c => match acc, digitVal c with
              | some v, some d => if d < b then some (v * b + d) else none
              | _, _ => none) (some x) = some y → x * b ^ s.length ≤ y := by
            intro s
            induction s with
            | nil => intro x y h; simp at h ⊢; omega
            | cons c s ih2 =>
              intro x y h
              rw [List.foldl_cons] at h
              cases hd2 : digitVal c with
              | none => rw [hd2] at h; simp only [hnone] at h; exact absurd h (by simp)
              | some d2 =>
                rw [hd2] at h
                dsimp only at h
                by_cases hb2 : d2 < b
                · rw [if_pos hb2] at h
                  have := ih2 _ _ h
                  rw [List.length_cons, Nat.pow_succ, Nat.mul_comm (b ^ s.length) b, ← Nat.mul_assoc]
                  exact Nat.le_trans (Nat.mul_le_mul_right _ (by omega)) this
                · rw [if_neg hb2, hnone] at h; exact absurd h (by simp)
          have := hge s _ _ h
          rw [Nat.add_mul, Nat.mul_assoc, Nat.mul_comm b] at this
          refine ⟨v - d * b ^ s.length, ?_, by omega⟩
          rw [Nat.add_mul, Nat.mul_assoc, Nat.mul_comm b]
          congr 1
          omega
        obtain ⟨w, h3, h4⟩ := h2
        rw [h3] at h
        rw [ih _ (a' * b + d) _ h]
        rw [Nat.add_mul, Nat.mul_assoc, Nat.mul_comm b]
        congr 1
        omega
      · rw [if_neg hb, hnone] at h; exact absurd h (by simp)

theorem textVal_cons (b : Nat) (d : Nat) (hd : d < b) (hb : b ≤ 36) (s : List Byte) (v : Nat) (h : textVal b s = some v) :
    textVal b (digitChar d :: s) = some (d * b ^ s.length + v) := by
  have := foldl_textVal b s d v h
  unfold textVal
  rw [List.foldl_cons, digitVal_digitChar d (by omega)]
  dsimp only
  rw [if_pos hd, Nat.zero_mul, Nat.zero_add]
  exact this

/-- What the conversion loop leaves in the buffer. -/
theorem printLoop_spec (b : Nat) (hb : 2 ≤ b) (hb' : b ≤ 36) : ∀ (fuel value : Nat) (digits : Int) (acc : List Byte) (v : Nat),
    textVal b acc = some v → value < 2 ^ fuel → digits ≤ fuel → 1 ≤ fuel →
    ∃ k, 1 ≤ k ∧ (printLoop b fuel value digits acc).length = k + acc.length ∧
      textVal b (printLoop b fuel value digits acc) = some (value * b ^ acc.length + v) ∧
      digits ≤ k ∧ (k ≠ 1 → (k : Int) = digits ∨ b ^ (k - 1) ≤ value) ∧
      (digits < k → k ≠ 1 → (printLoop b fuel value digits acc).head? ≠ some 0x30#8) := by
  intro fuel
  induction fuel with
  | zero => intro value digits acc v _ _ _ h; omega
  | succ fuel ih =>
    intro value digits acc v hacc hval hdig _
    have hdv := Nat.div_add_mod value b
    have hm : value % b < b := Nat.mod_lt _ (by omega)
    have hcons : textVal b (digitChar (value % b) :: acc) = some (value % b * b ^ acc.length + v) :=
      textVal_cons b _ hm hb' acc v hacc
    unfold printLoop
    dsimp only
    by_cases hc : digits - 1 > 0 ∨ value / b ≠ 0
    · rw [if_pos hc]
      have hq : value / b < 2 ^ fuel := by
        apply Nat.div_lt_of_lt_mul
        rw [Nat.pow_succ, Nat.mul_comm] at hval
        exact Nat.lt_of_lt_of_le hval (Nat.mul_le_mul_right _ hb)
      have hf : 1 ≤ fuel := by
        rcases hc with hc | hc
        · omega
        · rcases Nat.eq_zero_or_pos fuel with h | h
          · subst h; rw [Nat.pow_zero] at hq; exact absurd (Nat.lt_one_iff.mp hq) hc
          · exact h
      obtain ⟨k, k1, k2, k3, k4, k5, k6⟩ := ih (value / b) (digits - 1) (digitChar (value % b) :: acc) _ hcons hq (by omega) hf
      rw [List.length_cons] at k2 k3
      refine ⟨k + 1, by omega, by omega, ?_, by omega, ?_, ?_⟩
      · rw [k3, Nat.pow_succ]
        congr 1
        have e : value / b * (b ^ acc.length * b) + value % b * b ^ acc.length
            = (b * (value / b) + value % b) * b ^ acc.length := by
          rw [Nat.add_mul, Nat.mul_comm b, Nat.mul_assoc, Nat.mul_comm b]
        rw [hdv] at e
        omega
      · intro _
        by_cases h1 : k = 1
        · subst h1
          rcases hc with hc | hc
          · have : (1 : Int) ≥ digits - 1 := by omega
            left; omega
          · right
            show b ^ 1 ≤ value
            rw [Nat.pow_one]
            rcases Nat.lt_or_ge value b with h | h
            · exact absurd (Nat.div_eq_of_lt h) hc
            · exact h
        · rcases k5 h1 with h | h
          · left; omega
          · right
            have : k + 1 - 1 = (k - 1) + 1 := by omega
            rw [this, Nat.pow_succ]
            exact Nat.le_trans (Nat.mul_le_mul_right b h) (Nat.div_mul_le_self _ _)
      · intro hlt _
        by_cases h1 : k = 1
        · -- exactly one further digit, the quotient, which is not zero
          subst h1
          have hq0 : value / b ≠ 0 := by
            rcases hc with hc | hc
            · omega
            · exact hc
          have hl : value / b < b ∧ printLoop b fuel (value / b) (digits - 1) (digitChar (value % b) :: acc)
              = digitChar (value / b % b) :: digitChar (value % b) :: acc := by
            obtain ⟨f', rfl⟩ : ∃ f', fuel = f' + 1 := ⟨fuel - 1, by omega⟩
            unfold printLoop at k2 ⊢
            dsimp only at k2 ⊢
            by_cases hc2 : digits - 1 - 1 > 0 ∨ value / b / b ≠ 0
            · rw [if_pos hc2] at k2
              exfalso
              have hcons2 := textVal_cons b (value / b % b) (Nat.mod_lt _ (by omega)) hb' _ _ hcons
              have hq2 : value / b / b < 2 ^ f' := by
                apply Nat.div_lt_of_lt_mul
                rw [Nat.pow_succ, Nat.mul_comm] at hq
                exact Nat.lt_of_lt_of_le hq (Nat.mul_le_mul_right _ hb)
              have hf2 : 1 ≤ f' := by
                rcases hc2 with hc2 | hc2
                · omega
                · rcases Nat.eq_zero_or_pos f' with h | h
                  · subst h; rw [Nat.pow_zero] at hq2; exact absurd (Nat.lt_one_iff.mp hq2) hc2
                  · exact h
              obtain ⟨k', k1', k2', -⟩ := ih2_aux b f' (value / b / b) (digits - 1 - 1)
                (digitChar (value / b % b) :: digitChar (value % b) :: acc) hf2
              rw [k2'] at k2
              simp only [List.length_cons] at k2
              omega
            · rw [if_neg hc2]
              refine ⟨?_, rfl⟩
              rcases Nat.lt_or_ge (value / b) b with h | h
              · exact h
              · have hz : value / b / b = 0 := Decidable.byContradiction fun h => hc2 (Or.inr h)
                exact absurd (Nat.div_eq_zero_iff_lt (by omega) |>.mp hz) (by omega)
          rw [hl.2]
          rw [Nat.mod_eq_of_lt hl.1]
          have hne : ∀ d : Fin 36, d.val ≠ 0 → digitChar d ≠ 0x30#8 := by decide +kernel
          have := hne ⟨value / b, by omega⟩ hq0
          simpa using this
        · exact k6 (by omega) h1
    · rw [if_neg hc]
      have hv0 : value / b = 0 := by omega
      have hlt : value < b := by
        rcases Nat.lt_or_ge value b with h | h
        · exact h
        · exact absurd (Nat.div_eq_zero_iff_lt (by omega) |>.mp hv0) (by omega)
      refine ⟨1, by omega, by rw [List.length_cons]; omega, ?_, by omega, fun h => absurd rfl h, fun _ h => absurd rfl h⟩
      rw [hcons, Nat.mod_eq_of_lt hlt]
where
  ih2_aux (b : Nat) : ∀ (fuel value : Nat) (digits : Int) (acc : List Byte), 1 ≤ fuel →
      ∃ k, 1 ≤ k ∧ (printLoop b fuel value digits acc).length = k + acc.length ∧ True := by
    intro fuel
    induction fuel with
    | zero => intro _ _ _ h; omega
    | succ fuel ih =>
      intro value digits acc _
      unfold printLoop
      dsimp only
      split
      · rcases Nat.eq_zero_or_pos fuel with h | h
        · subst h
          exact ⟨1, by omega, by unfold printLoop; rw [List.length_cons]; omega, trivial⟩
        · obtain ⟨k, k1, k2, -⟩ := ih (value / b) (digits - 1) (digitChar (value % b) :: acc) h
          exact ⟨k + 1, by omega, by rw [k2, List.length_cons]; omega, trivial⟩
      · exact ⟨1, by omega, by rw [List.length_cons]; omega, trivial⟩

/-- **C35 (print, unsigned).** For every 32-bit value, every base from 2 to 36 and every minimum number of digits up to
33: the text written denotes the value in that base, has at least the requested number of digits, and has
a leading zero only where the requested width asks for it (or it is the single digit 0). -/
theorem C35_print_unsigned (value : BitVec 32) (base : Nat) (hb : 2 ≤ base) (hb' : base ≤ 36) (digits : Int) (hd : digits ≤ 33) :
    ∃ s, printUInt value base digits = some s ∧ textVal base s = some value.toNat ∧ digits ≤ s.length ∧ s ≠ [] ∧
      (digits < s.length → 1 < s.length → s.head? ≠ some 0x30#8) := by
  unfold printUInt
  have hb0 : (if base < 2 then 2 else base) = base := if_neg (by omega)
  rw [hb0]
  dsimp only
  have hlt : value.toNat < 2 ^ (digits.toNat + 33) :=
    Nat.lt_of_lt_of_le value.isLt (Nat.pow_le_pow_right (by omega) (by omega))
  obtain ⟨k, k1, k2, k3, k4, k5, k6⟩ := printLoop_spec base hb hb' (digits.toNat + 33) value.toNat digits [] 0 rfl hlt
    (by omega) (by omega)
  rw [List.length_nil, Nat.add_zero] at k2
  have hk : k ≤ 33 := by
    by_cases h1 : k = 1
    · omega
    · rcases k5 h1 with h | h
      · omega
      · rcases Nat.lt_or_ge 33 k with h33 | h33
        · exfalso
          have h2 : 2 ^ (k - 1) ≤ base ^ (k - 1) := Nat.pow_le_pow_left hb _
          have h3 : 2 ^ 33 ≤ 2 ^ (k - 1) := Nat.pow_le_pow_right (by omega) (by omega)
          have := value.isLt
          omega
        · exact h33
  rw [if_pos (by rw [k2]; exact hk)]
  refine ⟨_, rfl, ?_, by rw [k2]; exact k4, ?_, ?_⟩
  · rw [k3]; simp
  · intro hnil; rw [hnil] at k2; simp at k2; omega
  · intro h1 h2
    rw [k2] at h1 h2
    exact k6 h1 (by omega)

/-- **C35 (print, signed).** A non-negative `int` is written like the unsigned value; a negative one as a minus sign
followed by the magnitude, the sign counting as one of the requested digits. (The most negative `int` is
excluded: negating it is undefined in C++.) -/
theorem C35_print_signed (value : BitVec 32) (hmin : value.toInt ≠ -2147483648) (base : Nat) (hb : 2 ≤ base) (hb' : base ≤ 36)
    (digits : Int) (hd : digits ≤ 33) :
    ∃ s, printInt value base digits = some s ∧ digits ≤ s.length ∧
      ((0 ≤ value.toInt ∧ textVal base s = some value.toNat ∧ (digits < s.length → 1 < s.length → s.head? ≠ some 0x30#8)) ∨
       (value.toInt < 0 ∧ ∃ m, s = 0x2D#8 :: m ∧ textVal base m = some (value.toInt.natAbs) ∧
          (digits < s.length → 1 < m.length → m.head? ≠ some 0x30#8))) := by
  unfold printInt
  have hslt : value.slt 0#32 = decide (value.toInt < 0) := by
    rw [BitVec.slt_eq_decide]; rfl
  rw [hslt]
  by_cases hneg : value.toInt < 0
  · rw [if_pos (by simpa using hneg)]
    obtain ⟨s, s1, s2, s3, s4, s5⟩ := C35_print_unsigned (-value) base hb hb' (digits - 1) (by omega)
    rw [s1]
    refine ⟨0x2D#8 :: s, rfl, by rw [List.length_cons]; omega, Or.inr ⟨hneg, s, rfl, ?_, ?_⟩⟩
    · rw [s2]
      congr 1
      rw [BitVec.toInt_eq_toNat_cond] at hneg hmin ⊢
      have := value.isLt
      rw [BitVec.toNat_neg]
      split at hneg
      · omega
      · rename_i h
        rw [if_neg h]
        omega
    · intro h1 h2
      rw [List.length_cons] at h1
      exact s5 (by omega) h2
  · rw [if_neg (by simpa using hneg)]
    obtain ⟨s, s1, s2, s3, s4, s5⟩ := C35_print_unsigned value base hb hb' digits hd
    exact ⟨s, s1, s3, Or.inl ⟨by omega, s2, s5⟩⟩

example : printInt (-42 : BitVec 32) 10 5 = some [0x2D#8, 0x30#8, 0x30#8, 0x34#8, 0x32#8] := by decide +kernel
example : printUInt 0xBEEF#32 16 (-1) = some [0x42#8, 0x45#8, 0x45#8, 0x46#8] := by decide +kernel

/-- **C35, finding.** Asking for more than 33 digits overruns the conversion buffer on the stack. -/
theorem C35_too_many_digits_overflow : printUInt 5#32 10 34 = none := by decide +kernel

/-! ## parse -/

/-- Specification: the decimal value of a run of characters in which the skip character is ignored. -/
def decVal (skip : Byte) : List Byte → Nat → Nat
  | [], acc => acc
  | c :: cs, acc => if isDigit c then decVal skip cs (acc * 10 + (c.toNat - 48)) else decVal skip cs acc

theorem parseLoop_run (skip : Byte) : ∀ (run rest : List Byte) (acc : Nat),
    (∀ c ∈ run, isDigit c = true ∨ c = skip) →
    (∀ c, rest.head? = some c → isDigit c = false ∧ c ≠ skip) →
    parseLoop skip (BitVec.ofNat 32 acc) (run ++ rest) = (BitVec.ofNat 32 (decVal skip run acc), rest) := by
  intro run
  induction run with
  | nil =>
    intro rest acc _ hrest
    rw [List.nil_append]
    cases rest with
    | nil => rfl
    | cons c cs =>
      have := hrest c rfl
      unfold parseLoop decVal
      rw [this.1, if_neg (by simp), if_pos this.2]
  | cons c run ih =>
    intro rest acc hrun hrest
    rw [List.cons_append]
    unfold parseLoop decVal
    have hr : ∀ c ∈ run, isDigit c = true ∨ c = skip := fun x hx => hrun x (List.mem_cons_of_mem _ hx)
    by_cases hd : isDigit c = true
    · rw [if_pos hd, if_pos hd, ← ih rest _ hr hrest]
      congr 1
      have h48 : 48 ≤ c.toNat ∧ c.toNat ≤ 57 := by
        unfold isDigit at hd
        rw [Bool.and_eq_true, decide_eq_true_eq, decide_eq_true_eq, BitVec.le_def, BitVec.le_def] at hd
        exact hd
      apply BitVec.eq_of_toNat_eq
      rw [BitVec.toNat_sub, BitVec.toNat_add, BitVec.toNat_mul, BitVec.toNat_setWidth]
      simp only [BitVec.toNat_ofNat]
      omega
    · rw [if_neg hd, if_neg hd]
      have hs : c = skip := by
        rcases hrun c List.mem_cons_self with h | h
        · exact absurd h hd
        · exact h
      rw [if_neg (by simpa using hs)]
      exact ih rest acc hr hrest

theorem skipToDigit_junk (junk rest : List Byte) (hj : ∀ c ∈ junk, c ≠ 0x2D#8 ∧ isDigit c = false) :
    skipToDigit (junk ++ rest) = skipToDigit rest := by
  induction junk with
  | nil => rfl
  | cons c junk ih =>
    have := hj c List.mem_cons_self
    rw [List.cons_append, skipToDigit, if_neg (by simp [this.1, this.2])]
    exact ih (fun x hx => hj x (List.mem_cons_of_mem _ hx))

/-- **C35 (parse).** `parseInt` skips leading characters that are neither digits nor a minus sign, takes an optional
minus sign and then the longest run of digits (ignoring the skip character in between), returns the value
of that run, and leaves everything behind it unread. Any stream that contains a digit or a minus sign
has this form, and if it contains none, the whole stream is consumed and 0 is returned. -/
theorem C35_parse (skip : Byte) (junk run rest : List Byte) (neg : Bool)
    (hj : ∀ c ∈ junk, c ≠ 0x2D#8 ∧ isDigit c = false)
    (hstart : neg = false → ∃ c, run.head? = some c ∧ isDigit c = true)
    (hrun : ∀ c ∈ run, isDigit c = true ∨ c = skip)
    (hrest : ∀ c, rest.head? = some c → isDigit c = false ∧ c ≠ skip)
    (hfit : decVal skip run 0 < 2 ^ 31) :
    (parseInt skip (junk ++ (if neg then [0x2D#8] else []) ++ run ++ rest)).2 = rest ∧
    (parseInt skip (junk ++ (if neg then [0x2D#8] else []) ++ run ++ rest)).1.toInt
      = if neg then -(decVal skip run 0 : Int) else decVal skip run 0 := by
  have hv : (BitVec.ofNat 32 (decVal skip run 0)).toInt = decVal skip run 0 := by
    rw [BitVec.toInt_eq_toNat_cond, BitVec.toNat_ofNat]
    rw [Nat.mod_eq_of_lt (by omega), if_pos (by omega)]
  have hloop := parseLoop_run skip run rest 0 hrun hrest
  cases neg
  · obtain ⟨c, hc, hd⟩ := hstart rfl
    obtain ⟨tl, rfl⟩ : ∃ tl, run = c :: tl := by
      cases run with
      | nil => simp at hc
      | cons x tl => simp at hc; exact ⟨tl, by rw [hc]⟩
    have hne : c ≠ 0x2D#8 := by
      intro h; rw [h] at hd; exact absurd hd (by decide)
    have : parseInt skip (junk ++ [] ++ (c :: tl) ++ rest) = (BitVec.ofNat 32 (decVal skip (c :: tl) 0), rest) := by
      unfold parseInt
      rw [List.append_nil, List.append_assoc, skipToDigit_junk junk _ hj, List.cons_append, skipToDigit,
        if_pos (Or.inr hd)]
      dsimp only
      rw [if_neg hne]
      exact hloop
    simp only [Bool.false_eq_true, if_false]
    rw [this]
    exact ⟨rfl, hv⟩
  · have : parseInt skip (junk ++ [0x2D#8] ++ run ++ rest) = (-(BitVec.ofNat 32 (decVal skip run 0)), rest) := by
      unfold parseInt
      rw [List.append_assoc, List.append_assoc, skipToDigit_junk junk _ hj]
      rw [List.singleton_append, skipToDigit, if_pos (Or.inl rfl)]
      dsimp only
      rw [if_pos rfl]
      have h0 : (0#32 * 10#32 + 0x30#32 - 0x30#32 : BitVec 32) = BitVec.ofNat 32 0 := by decide
      rw [h0, hloop]
    simp only [if_true]
    rw [this]
    refine ⟨rfl, ?_⟩
    rw [BitVec.toInt_neg, hv]
    rw [Int.bmod_eq_of_le (by omega) (by omega)]

/-- **C35 (parse).** With no digit and no minus sign in the stream, everything is consumed and the result is 0. -/
theorem C35_parse_nothing (skip : Byte) (junk : List Byte) (hj : ∀ c ∈ junk, c ≠ 0x2D#8 ∧ isDigit c = false) :
    parseInt skip junk = (0#32, []) := by
  have := skipToDigit_junk junk [] hj
  rw [List.append_nil] at this
  unfold parseInt
  rw [this]
  rfl

theorem textVal_decVal (s : List Byte) (v : Nat) (h : textVal 10 s = some v) (skip : Byte) :
    (∀ c ∈ s, isDigit c = true) ∧ decVal skip s 0 = v := by
  have hnone : ∀ s : List Byte, s.foldl (fun acc c => match acc, digitVal c with
      | some v, some d => if d < 10 then some (v * 10 + d) else none
      | _, _ => none) (none : Option Nat) = none := by
    intro s
    induction s with
    | nil => rfl
    | cons c s ih => rw [List.foldl_cons]; exact ih
  have hdig : ∀ c : Byte, ∀ d, digitVal c = some d → d < 10 → isDigit c = true ∧ d = c.toNat - 48 := by
    have : ∀ c : Byte, (digitVal c).getD 99 < 10 → isDigit c = true ∧ (digitVal c).getD 99 = c.toNat - 48 := by
      decide +kernel
    intro c d hc
    have t := this c
    rw [hc] at t
    exact t
  suffices H : ∀ (s : List Byte) (a v : Nat), s.foldl (fun acc c => match acc, digitVal c with
      | some v, some d => if d < 10 then some (v * 10 + d) else none
      | _, _ => none) (some a) = some v → (∀ c ∈ s, isDigit c = true) ∧ decVal skip s a = v from H s 0 v h
  intro s
  induction s with
  | nil => intro a v h; simp at h; exact ⟨by simp, h⟩
  | cons c s ih =>
    intro a v h
    rw [List.foldl_cons] at h
    cases hd : digitVal c with
    | none => rw [hd] at h; simp only [hnone] at h; exact absurd h (by simp)
    | some d =>
      rw [hd] at h
      dsimp only at h
      by_cases hb : d < 10
      · rw [if_pos hb] at h
        obtain ⟨i1, i2⟩ := ih _ _ h
        obtain ⟨j1, j2⟩ := hdig c d hd hb
        refine ⟨?_, ?_⟩
        · intro x hx
          rcases List.mem_cons.mp hx with h | h
          · rw [h]; exact j1
          · exact i1 x h
        · unfold decVal
          rw [if_pos j1, ← j2]
          exact i2
      · rw [if_neg hb, hnone] at h; exact absurd h (by simp)

/-- **C35 (round trip).** Every `int` (except the most negative one) that is printed in decimal, with any width up to
33, and then parsed — behind any text without digits and minus signs, and in front of anything that does
not start with a digit — comes back, and the rest of the stream is left unread. -/
theorem C35_print_parse (value : BitVec 32) (hmin : value.toInt ≠ -2147483648) (digits : Int) (hd : digits ≤ 33)
    (junk rest : List Byte) (hj : ∀ c ∈ junk, c ≠ 0x2D#8 ∧ isDigit c = false)
    (hrest : ∀ c, rest.head? = some c → isDigit c = false) :
    ∃ s, printInt value 10 digits = some s ∧
      (parseInt 0x30#8 (junk ++ s ++ rest)).1.toInt = value.toInt ∧ (parseInt 0x30#8 (junk ++ s ++ rest)).2 = rest := by
  have hrest' : ∀ c, rest.head? = some c → isDigit c = false ∧ c ≠ 0x30#8 := by
    intro c hc
    refine ⟨hrest c hc, ?_⟩
    intro h
    have := hrest c hc
    rw [h] at this
    exact absurd this (by decide)
  obtain ⟨s, s1, s2, s3⟩ := C35_print_signed value hmin 10 (by omega) (by omega) digits hd
  refine ⟨s, s1, ?_⟩
  rcases s3 with ⟨h0, h1, h2⟩ | ⟨h0, m, h1, h2, h3⟩
  · obtain ⟨d1, d2⟩ := textVal_decVal s _ h1 0x30#8
    have hne : s ≠ [] := by
      obtain ⟨s', a1, -, -, a4, -⟩ := C35_print_unsigned value 10 (by omega) (by omega) digits hd
      unfold printInt at s1
      have hslt : value.slt 0#32 = decide (value.toInt < 0) := by rw [BitVec.slt_eq_decide]; rfl
      rw [hslt, if_neg (by simp; omega), a1] at s1
      cases s1
      exact a4
    have htoNat : (value.toNat : Int) = value.toInt := by
      rw [BitVec.toInt_eq_toNat_cond] at h0 ⊢
      have := value.isLt
      split <;> omega
    have hlt : value.toInt < 2 ^ 31 := by
      rw [BitVec.toInt_eq_toNat_cond]
      have := value.isLt
      split <;> omega
    have := C35_parse 0x30#8 junk s rest false hj (fun _ => by
      cases s with
      | nil => exact absurd rfl hne
      | cons c t => exact ⟨c, rfl, d1 c List.mem_cons_self⟩) (fun c hc => Or.inl (d1 c hc)) hrest' (by rw [d2]; omega)
    simp only [Bool.false_eq_true, if_false, List.append_nil] at this
    rw [d2] at this
    exact ⟨by rw [this.2, htoNat], this.1⟩
  · obtain ⟨d1, d2⟩ := textVal_decVal m _ h2 0x30#8
    have hlt : value.toInt.natAbs < 2 ^ 31 := by
      rw [BitVec.toInt_eq_toNat_cond] at h0 hmin ⊢
      have := value.isLt
      split at h0
      · omega
      · rename_i h
        rw [if_neg h] at hmin ⊢
        omega
    have := C35_parse 0x30#8 junk m rest true hj (fun h => by simp at h) (fun c hc => Or.inl (d1 c hc)) hrest'
      (by rw [d2]; exact hlt)
    simp only [if_true] at this
    rw [d2] at this
    have e : junk ++ [0x2D#8] ++ m ++ rest = junk ++ s ++ rest := by rw [h1]; simp
    rw [e] at this
    refine ⟨?_, this.1⟩
    rw [this.2]
    omega

/-- Non-vacuity. -/
example : parseInt 0x30#8 [0x78#8, 0x3D#8, 0x2D#8, 0x30#8, 0x34#8, 0x32#8, 0x3B#8] = (-42, [0x3B#8]) := by decide +kernel

/-! ## C54 -/

/-- **C54 (readBytesUntil).** The bytes stored are the longest prefix of the stream that does not contain the
terminator, cut at the given length; the terminator is consumed but not stored; nothing else is consumed. -/
theorem C54_read_until (term : Byte) (n : Nat) (s : List Byte) :
    ∃ got rest, readBytesUntil (some term) n s = (got, rest) ∧ got.length ≤ n ∧ term ∉ got ∧
      (s = got ++ rest ∧ (got.length = n ∨ rest = []) ∨ s = got ++ term :: rest ∧ got.length < n) := by
  induction n generalizing s with
  | zero => exact ⟨[], s, rfl, by simp, by simp, Or.inl ⟨by simp, Or.inl rfl⟩⟩
  | succ n ih =>
    cases s with
    | nil => exact ⟨[], [], rfl, by simp, by simp, Or.inl ⟨by simp, Or.inr rfl⟩⟩
    | cons c cs =>
      unfold readBytesUntil
      by_cases h : some c = some term
      · rw [if_pos h]
        have : c = term := by simpa using h
        subst this
        exact ⟨[], cs, rfl, by simp, by simp, Or.inr ⟨rfl, by simp⟩⟩
      · rw [if_neg h]
        have hne : c ≠ term := fun e => h (by rw [e])
        obtain ⟨got, rest, h1, h2, h3, h4⟩ := ih cs
        rw [h1]
        refine ⟨c :: got, rest, rfl, by rw [List.length_cons]; omega, ?_, ?_⟩
        · intro hm
          rcases List.mem_cons.mp hm with h | h
          · exact hne h.symm
          · exact h3 h
        · rcases h4 with ⟨a, b⟩ | ⟨a, b⟩
          · left
            refine ⟨by rw [a]; rfl, ?_⟩
            rcases b with b | b
            · left; rw [List.length_cons, b]
            · right; exact b
          · right
            exact ⟨by rw [a]; rfl, by rw [List.length_cons]; omega⟩

/-- **C54 (readBytes).** Without a terminator exactly `min n (available)` bytes are stored, in order. -/
theorem C54_read_bytes (n : Nat) (s : List Byte) : readBytesUntil none n s = (s.take n, s.drop n) := by
  induction n generalizing s with
  | zero => rfl
  | succ n ih =>
    cases s with
    | nil => rfl
    | cons c cs =>
      unfold readBytesUntil
      rw [if_neg (by simp), ih]
      rfl

/-- Invariant of the search: the last `ti` characters read match the start of the target, the last `ei` the start
of the terminator. -/
theorem findLoop_sound (target term : List Byte) : ∀ (s : List Byte) (ti ei : Nat) (before : List Byte),
    ti < target.length → (0 < term.length → ei < term.length) → target.take ti <:+ before → term.take ei <:+ before →
    (findLoop target term ti ei s).2.length ≤ s.length ∧
    (∃ used, s = used ++ (findLoop target term ti ei s).2 ∧
      ((findLoop target term ti ei s).1 = true → target <:+ before ++ used) ∧
      ((findLoop target term ti ei s).1 = false → (findLoop target term ti ei s).2 = [] ∨ term ≠ [] ∧ term <:+ before ++ used)) := by
  have snoc : ∀ (t before : List Byte) (i : Nat) (c : Byte), t[i]? = some c → t.take i <:+ before →
      t.take (i + 1) <:+ before ++ [c] := by
    intro t before i c hc h
    obtain ⟨p, hp⟩ := h
    refine ⟨p, ?_⟩
    rw [List.take_add_one, hc, ← hp]
    simp
  intro s
  induction s with
  | nil =>
    intro ti ei before _ _ _ _
    refine ⟨by simp [findLoop], [], by simp [findLoop], by simp [findLoop], by simp [findLoop]⟩
  | cons c cs ih =>
    intro ti ei before hti hei h1 h2
    have step : ∀ ti' ei', ti' < target.length → (0 < term.length → ei' < term.length) → target.take ti' <:+ before ++ [c] →
        term.take ei' <:+ before ++ [c] →
        findLoop target term ti ei (c :: cs) = findLoop target term ti' ei' cs →
        (findLoop target term ti ei (c :: cs)).2.length ≤ (c :: cs).length ∧
        (∃ used, c :: cs = used ++ (findLoop target term ti ei (c :: cs)).2 ∧
          ((findLoop target term ti ei (c :: cs)).1 = true → target <:+ before ++ used) ∧
          ((findLoop target term ti ei (c :: cs)).1 = false →
            (findLoop target term ti ei (c :: cs)).2 = [] ∨ term ≠ [] ∧ term <:+ before ++ used)) := by
      intro ti' ei' a b e f g
      rw [g]
      obtain ⟨i1, used, i2, i3, i4⟩ := ih ti' ei' (before ++ [c]) a b e f
      refine ⟨by rw [List.length_cons]; omega, c :: used, ?_, ?_, ?_⟩
      · rw [List.cons_append, ← i2]
      · intro h; have := i3 h; simpa using this
      · intro h
        rcases i4 h with q | q
        · exact Or.inl q
        · exact Or.inr (by simpa using q)
    by_cases hdone : target[ti]? = some c ∧ ti + 1 ≥ target.length
    · have e : findLoop target term ti ei (c :: cs) = (true, cs) := by
        rw [findLoop]
        rw [if_pos hdone]
      rw [e]
      refine ⟨by simp, [c], rfl, fun _ => ?_, fun h => by simp at h⟩
      have := snoc target before ti c hdone.1 h1
      rwa [List.take_of_length_le (by omega)] at this
    · -- the next target index
      obtain ⟨ti', hti'⟩ : ∃ ti', (if target[ti]? = some c then ti + 1 else 0) = ti' := ⟨_, rfl⟩
      have hti2 : ti' < target.length ∧ target.take ti' <:+ before ++ [c] := by
        by_cases hm : target[ti]? = some c
        · rw [if_pos hm] at hti'
          subst hti'
          have : ¬ ti + 1 ≥ target.length := fun h => hdone ⟨hm, h⟩
          exact ⟨by omega, snoc target before ti c hm h1⟩
        · rw [if_neg hm] at hti'
          subst hti'
          exact ⟨by omega, by simp⟩
      by_cases ht : term.length > 0
      · by_cases hm : term[ei]? = some c
        · by_cases hfin : ei + 1 ≥ term.length
          · have e : findLoop target term ti ei (c :: cs) = (false, cs) := by
              rw [findLoop]
              rw [if_neg hdone, if_pos ht, if_pos hm, if_pos hfin]
            rw [e]
            refine ⟨by simp, [c], rfl, fun h => by simp at h, fun _ => Or.inr ⟨?_, ?_⟩⟩
            · intro h; rw [h] at ht; simp at ht
            · have := snoc term before ei c hm h2
              rwa [List.take_of_length_le (by omega)] at this
          · apply step ti' (ei + 1) hti2.1 (fun _ => by omega) hti2.2 (snoc term before ei c hm h2)
            rw [findLoop]
            rw [if_neg hdone, if_pos ht, if_pos hm, if_neg hfin, hti']
        · apply step ti' 0 hti2.1 (fun h => h) hti2.2 (by simp)
          rw [findLoop]
          rw [if_neg hdone, if_pos ht, if_neg hm, hti']
      · have hnil : term = [] := by
          cases term with
          | nil => rfl
          | cons a b => simp at ht
        apply step ti' ei hti2.1 (fun h => absurd h ht) hti2.2 (by rw [hnil]; simp)
        rw [findLoop]
        rw [if_neg hdone, if_neg ht, hti']

/-- **C54 (find), partial.** For a non-empty target: if `findUntil` reports success, the characters consumed end with
the target; if it reports failure, either the whole stream was consumed (timeout) or there is a terminator
and the characters consumed end with it. Only a prefix of the stream is consumed. Missing: that an
occurrence of the target is always found — which is false, see the next theorem. -/
theorem C54_find_sound_partial (target term s : List Byte) (ht : target ≠ []) :
    ∃ used rest, findUntil target term s = ((findUntil target term s).1, rest) ∧ s = used ++ rest ∧
      ((findUntil target term s).1 = true → target <:+ used) ∧
      ((findUntil target term s).1 = false → rest = [] ∨ term ≠ [] ∧ term <:+ used) := by
  have hlen : 0 < target.length := List.length_pos_iff.mpr ht
  obtain ⟨-, used, h1, h2, h3⟩ := findLoop_sound target term s 0 0 [] hlen (fun h => h) (by simp) (by simp)
  exact ⟨used, _, rfl, h1, by simpa [findUntil] using h2, by simpa [findUntil] using h3⟩

/-- **C54, finding.** The search restarts behind a mismatch without looking at the mismatching character again: the
text "ab" is not found in "aab". -/
theorem C54_find_misses_occurrence :
    (findUntil [0x61#8, 0x62#8] [] [0x61#8, 0x61#8, 0x62#8]).1 = false := by decide

/-- **C54 (find).** A single-character target is found exactly if it occurs, and the stream is consumed up to and
including its first occurrence. -/
theorem C54_find_char (t : Byte) (s : List Byte) :
    ((findUntil [t] [] s).1 = true ↔ t ∈ s) ∧
    ((findUntil [t] [] s).1 = true → ∃ pre, s = pre ++ t :: (findUntil [t] [] s).2 ∧ t ∉ pre) := by
  unfold findUntil
  induction s with
  | nil => simp [findLoop]
  | cons c cs ih =>
    by_cases h : t = c
    · subst h
      have e : findLoop [t] [] 0 0 (t :: cs) = (true, cs) := by simp [findLoop]
      rw [e]
      exact ⟨by simp, fun _ => ⟨[], rfl, by simp⟩⟩
    · have e : findLoop [t] [] 0 0 (c :: cs) = findLoop [t] [] 0 0 cs := by simp [findLoop, h]
      rw [e]
      refine ⟨by rw [ih.1]; simp [h], ?_⟩
      intro hf
      obtain ⟨pre, h1, h2⟩ := ih.2 hf
      refine ⟨c :: pre, by rw [List.cons_append, ← h1], ?_⟩
      intro hm
      rcases List.mem_cons.mp hm with q | q
      · exact h q
      · exact h2 q

example : findUntil [0x4F#8, 0x4B#8] [0x0A#8] [0x3E#8, 0x4F#8, 0x4B#8, 0x21#8] = (true, [0x21#8]) := by decide

end Verif.Text
