import Verif.Log.Raw

/-! # How the code reads a conversion that is written as the specification says -/

set_option linter.constructorNameAsVariable false

namespace Verif.Log

/-- The flags a list of flag characters sets. -/
def flagsOf (fs : List Flag) (f : Flags) : Flags :=
  { f with
    left := f.left || decide (Flag.minus ∈ fs), plus := f.plus || decide (.plus ∈ fs), space := f.space || decide (.space ∈ fs),
    special := f.special || decide (.hash ∈ fs), zeropad := f.zeropad || decide (.zero ∈ fs) }

/-- A character that is not a flag. -/
def NoFlag (c : Byte) : Prop := c ≠ 0x2D ∧ c ≠ 0x2B ∧ c ≠ 0x20 ∧ c ≠ 0x23 ∧ c ≠ 0x30

theorem flagLoop_stop (f : Flags) (c : Byte) (r : List Byte) (h : NoFlag c) : flagLoop f (c :: r) = (f, c :: r) := by
  obtain ⟨h1, h2, h3, h4, h5⟩ := h
  rw [flagLoop, if_neg h1, if_neg h2, if_neg h3, if_neg h4, if_neg h5]

theorem flagLoop_flags (fs : List Flag) (f : Flags) (c : Byte) (r : List Byte) (h : NoFlag c) :
    flagLoop f (fs.map Flag.text ++ c :: r) = (flagsOf fs f, c :: r) := by
  induction fs generalizing f with
  | nil => rw [List.map_nil, List.nil_append, flagLoop_stop f c r h]; simp [flagsOf]
  | cons a fs ih =>
    rw [List.map_cons, List.cons_append, flagLoop]
    cases a
    · rw [if_pos (by decide), ih]; simp [flagsOf]
    · rw [if_neg (by decide), if_pos (by decide), ih]; simp [flagsOf]
    · rw [if_neg (by decide), if_neg (by decide), if_pos (by decide), ih]; simp [flagsOf]
    · rw [if_neg (by decide), if_neg (by decide), if_neg (by decide), if_pos (by decide), ih]; simp [flagsOf]
    · rw [if_neg (by decide), if_neg (by decide), if_neg (by decide), if_neg (by decide), if_pos (by decide), ih]; simp [flagsOf]

theorem digit_dec : ∀ k : Fin 10, Text.isDigit (digitOf false k.val) = true ∧ (digitOf false k.val).toNat = 0x30 + k.val := by
  decide

theorem skipAtoi_numeral : ∀ (n : Nat) (r : List Byte), skipAtoi 0 (numeral false 10 n ++ r) = skipAtoi n r := by
  intro n
  induction n using Nat.strongRecOn with
  | _ n ih =>
    intro r
    by_cases h : n < 10
    · rw [numeral_lt _ _ _ h]
      have hd := digit_dec ⟨n, h⟩
      simp only at hd
      rw [List.cons_append, List.nil_append, skipAtoi, if_pos hd.1, hd.2]
      congr 1
      omega
    · rw [numeral_ge _ _ _ (by omega) (by omega), List.append_assoc, List.cons_append, List.nil_append, ih (n / 10) (by omega)]
      have hlt : n % 10 < 10 := Nat.mod_lt _ (by omega)
      have hd := digit_dec ⟨n % 10, hlt⟩
      simp only at hd
      rw [skipAtoi, if_pos hd.1, hd.2]
      congr 1
      omega

theorem skipAtoi_stop (i : Int) (c : Byte) (r : List Byte) (h : Text.isDigit c = false) : skipAtoi i (c :: r) = (i, c :: r) := by
  rw [skipAtoi, if_neg (by simp [h])]

theorem numeral_head : ∀ n : Nat, ∃ k t, k < 10 ∧ numeral false 10 n = digitOf false k :: t ∧ (0 < n → 0 < k) := by
  intro n
  induction n using Nat.strongRecOn with
  | _ n ih =>
    by_cases h : n < 10
    · exact ⟨n, [], h, numeral_lt _ _ _ h, id⟩
    · obtain ⟨k, t, h1, h2, h3⟩ := ih (n / 10) (by omega)
      refine ⟨k, t ++ [digitOf false (n % 10)], h1, ?_, fun _ => h3 (by omega)⟩
      rw [numeral_ge _ _ _ (by omega) (by omega), h2]
      rfl

theorem digit_noflag : ∀ k : Fin 10, 0 < k.val → NoFlag (digitOf false k.val) := by
  unfold NoFlag; decide

/-- The rest of a conversion from the length modifier on. -/
def tail (l : Len) (c : Conv) (r : List Byte) : List Byte := l.text ++ c.text :: r

theorem tail_head (l : Len) (c : Conv) (r : List Byte) : ∃ b t, tail l c r = b :: t ∧ NoFlag b ∧ Text.isDigit b = false ∧
    b ≠ 0x2A ∧ b ≠ 0x2E := by
  cases l <;> cases c <;> exact ⟨_, _, rfl, by unfold NoFlag; decide, by decide, by decide, by decide⟩

/-- The qualifier of a length modifier. -/
def qualOf : Len → Byte
  | .none => 0
  | .h => 0x68
  | .l => 0x6C

theorem qualifier_tail (l : Len) (c : Conv) (r : List Byte) : getQualifier (tail l c r) =
    (qualOf l, c.text :: r) := by
  cases l <;> cases c <;> rfl

theorem getWidth_digit (f : Flags) (c : Byte) (r : List Byte) (args : List Arg) (h : Text.isDigit c = true) :
    getWidth f (c :: r) args = some (f, (skipAtoi 0 (c :: r)).1, (skipAtoi 0 (c :: r)).2, args) := by
  unfold getWidth
  simp only [if_pos h]

theorem getWidth_other (f : Flags) (c : Byte) (r : List Byte) (args : List Arg) (h : Text.isDigit c = false) (h2 : c ≠ 0x2A) :
    getWidth f (c :: r) args = some (f, -1, c :: r, args) := by
  unfold getWidth
  simp only [h, Bool.false_eq_true, if_false, if_neg h2]

/-- The precision the code takes for the precision `p` of the specification (negative: none). -/
def precOf (a : Option Amount) (p : Int) : Int := if a = none then -1 else max p 0

theorem getPrecision_text (a : Option Amount) (l : Len) (c : Conv) (r : List Byte) (args args' : List Arg) (p : Int)
    (h : takeAmount a (-1) args = some (p, args')) :
    getPrecision (precText a ++ tail l c r) args = some (precOf a p, tail l c r, args') := by
  obtain ⟨b, t, e, hn, hd, hs, hdot⟩ := tail_head l c r
  match a with
  | none =>
    simp only [takeAmount, Option.some.injEq, Prod.mk.injEq] at h
    rw [show precText none = [] from rfl, List.nil_append, e, getPrecision.eq_def]
    simp only [if_neg hdot, h.2]
    rfl
  | some (.num n) =>
    simp only [takeAmount, Amount.take, Option.some.injEq, Prod.mk.injEq] at h
    obtain ⟨k, u, hk, hu, _⟩ := numeral_head n
    have hdk := (digit_dec ⟨k, hk⟩).1
    simp only at hdk
    have hsk : skipAtoi 0 (digitOf false k :: (u ++ tail l c r)) = ((n : Int), tail l c r) := by
      rw [← List.cons_append, ← hu, skipAtoi_numeral, e, skipAtoi_stop _ _ _ hd]
    rw [show precText (some (.num n)) = 0x2E#8 :: numeral false 10 n from rfl, hu, getPrecision.eq_def]
    simp only [List.cons_append, if_pos (show (0x2E#8 : Byte) = 0x2E from rfl), if_pos hdk, hsk]
    rw [if_neg (by omega), ← h.1, h.2]
    unfold precOf
    rw [if_neg (by simp)]
    congr 2
    omega
  | some .arg =>
    match args, h with
    | .int v :: args, h =>
      simp only [takeAmount, Amount.take, Option.some.injEq, Prod.mk.injEq] at h
      rw [show precText (some .arg) = [0x2E#8, 0x2A#8] from rfl, getPrecision.eq_def]
      simp only [List.cons_append, List.nil_append, if_pos (show (0x2E#8 : Byte) = 0x2E from rfl)]
      rw [if_neg (by decide)]
      simp only [if_pos (show (0x2A#8 : Byte) = 0x2A from rfl)]
      rw [h.1, h.2]
      rw [show precOf (some .arg) p = max p 0 by simp [precOf]]
      congr 2
      split <;> omega

/-- A conversion as the specification writes it is read as meant. -/
theorem parse_text (d : Directive) (args args' : List Arg) (w p : Int) (r : List Byte)
    (hw : ∀ n, d.width = some (.num n) → 0 < n) (h : d.amounts args = some (w, p, args'))
    (hm : w.natAbs ≤ 2 ^ 30 ∧ p ≤ 2 ^ 30) :
    ∃ w' : Int, (0 ≤ w' → w' = w.natAbs) ∧ (w' < 0 → w' = -1 ∧ w = 0) ∧
    parse (d.flags.map Flag.text ++ (widthText d.width ++ (precText d.precision ++ tail d.len d.conv r))) args =
      some ({ flagsOf d.flags {} with left := decide (Flag.minus ∈ d.flags ∨ w < 0) }, w', precOf d.precision p,
        qualOf d.len, d.conv.text :: r, args') := by
  unfold Directive.amounts at h
  split at h
  · cases h
  rename_i w1 args1 h1
  split at h
  · cases h
  rename_i p1 args2 h2
  simp only [Option.some.injEq, Prod.mk.injEq] at h
  obtain ⟨rfl, rfl, rfl⟩ := h
  have hpm : precOf d.precision p1 ≤ 2 ^ 30 := by
    unfold precOf
    split <;> omega
  have hp := getPrecision_text d.precision d.len d.conv r args1 args2 p1 h2
  have hq := qualifier_tail d.len d.conv r
  obtain ⟨b, t, e, hn, hd, hs, hdot⟩ := tail_head d.len d.conv r
  obtain ⟨b2, t2, e2, hn2, hd2, hs2⟩ : ∃ b t, precText d.precision ++ tail d.len d.conv r = b :: t ∧ NoFlag b ∧
      Text.isDigit b = false ∧ b ≠ 0x2A := by
    cases hpr : d.precision with
    | none => exact ⟨b, t, by rw [e]; rfl, hn, hd, hs⟩
    | some a => exact ⟨0x2E#8, _, rfl, by unfold NoFlag; decide, by decide, by decide⟩
  have hflags0 : flagsOf d.flags {} = { flagsOf d.flags {} with left := decide (Flag.minus ∈ d.flags) } := by
    simp [flagsOf]
  match hwd : d.width with
  | none =>
    rw [hwd] at h1
    simp only [takeAmount, Option.some.injEq, Prod.mk.injEq] at h1
    obtain ⟨rfl, rfl⟩ := h1
    refine ⟨-1, by omega, fun _ => ⟨rfl, rfl⟩, ?_⟩
    unfold parse
    rw [widthText, List.nil_append, e2, flagLoop_flags _ _ _ _ hn2]
    simp only
    rw [getWidth_other _ _ _ _ hd2 hs2]
    simp only
    rw [← e2, hp]
    simp only
    rw [hq]
    dsimp only
    rw [if_neg (by omega)]
    simp only [Int.lt_irrefl, or_false]
    rw [← hflags0]
  | some (.num n) =>
    rw [hwd] at h1
    simp only [takeAmount, Amount.take, Option.some.injEq, Prod.mk.injEq] at h1
    obtain ⟨rfl, rfl⟩ := h1
    obtain ⟨k, u, hk, hu, hk0⟩ := numeral_head n
    have hdk := (digit_dec ⟨k, hk⟩).1
    have hnk := digit_noflag ⟨k, hk⟩ (hk0 (hw n hwd))
    simp only at hdk hnk
    have hsk : skipAtoi 0 (digitOf false k :: (u ++ b2 :: t2)) = ((n : Int), b2 :: t2) := by
      rw [← List.cons_append, ← hu, skipAtoi_numeral, skipAtoi_stop _ _ _ hd2]
    refine ⟨n, by omega, by omega, ?_⟩
    unfold parse
    simp only [widthText, Amount.text]
    rw [hu, e2, List.cons_append, flagLoop_flags _ _ _ _ hnk]
    simp only
    rw [getWidth_digit _ _ _ _ hdk, hsk]
    simp only
    rw [← e2, hp]
    simp only
    rw [hq]
    dsimp only
    rw [if_neg (by omega)]
    simp only [show ¬ ((n : Int) < 0) by omega, or_false]
    rw [← hflags0]
  | some .arg =>
    rw [hwd] at h1
    match args, h1 with
    | .int v :: args, h1 =>
      simp only [takeAmount, Amount.take, Option.some.injEq, Prod.mk.injEq] at h1
      obtain ⟨rfl, rfl⟩ := h1
      refine ⟨v.toInt.natAbs, by omega, by omega, ?_⟩
      unfold parse
      simp only [widthText, Amount.text]
      rw [e2, List.cons_append, List.nil_append, flagLoop_flags _ _ _ _ (by unfold NoFlag; decide)]
      simp only
      unfold getWidth
      simp only
      rw [if_neg (by decide), if_pos (by decide)]
      by_cases hv : v.toInt < 0
      · rw [if_pos hv]
        simp only
        rw [← e2, hp]
        simp only
        rw [hq]
        dsimp only
        rw [if_neg (by omega)]
        simp only [hv, or_true, decide_true]
        congr 3
        omega
      · rw [if_neg hv]
        simp only
        rw [← e2, hp]
        simp only
        rw [hq]
        dsimp only
        rw [if_neg (by omega)]
        simp only [hv, or_false]
        rw [← hflags0]
        congr 3
        omega

end Verif.Log
