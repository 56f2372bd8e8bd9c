import Verif.Log.Model

namespace Verif.Log

/-! ## Output -/

def emit (lim : Nat) (t : List Byte) (o : Out) : Out := t.foldl (fun o c => put lim c o) o

theorem emit_append (lim : Nat) (t u : List Byte) (o : Out) : emit lim (t ++ u) o = emit lim u (emit lim t o) := by
  simp [emit, List.foldl_append]

theorem emit_nil (lim : Nat) (o : Out) : emit lim [] o = o := rfl

theorem put_emit (lim : Nat) (c : Byte) (o : Out) : put lim c o = emit lim [c] o := rfl

theorem repeat_succ' {α : Type} (f : α → α) (n : Nat) (a : α) : (n + 1).repeat f a = n.repeat f (f a) := by
  induction n generalizing a with
  | zero => rfl
  | succ n ih =>
    show f ((n + 1).repeat f a) = _
    rw [ih]
    rfl

theorem pad_emit (lim : Nat) (n : Int) (c : Byte) (o : Out) : pad lim n c o = emit lim (fill n c) o := by
  unfold pad fill
  generalize n.toNat = k
  induction k generalizing o with
  | zero => rfl
  | succ k ih =>
    rw [repeat_succ', ih, List.replicate_succ]
    rfl

theorem emit_pos (lim : Nat) (t : List Byte) (o : Out) : (emit lim t o).pos = o.pos + t.length := by
  induction t generalizing o with
  | nil => rfl
  | cons c t ih =>
    show (emit lim t (put lim c o)).pos = _
    rw [ih]
    simp [put]; omega

theorem emit_mem (lim : Nat) (t : List Byte) (o : Out) (i : Nat) :
    (emit lim t o).mem i = if o.pos ≤ i ∧ i < o.pos + t.length ∧ i < lim then t.getD (i - o.pos) 0 else o.mem i := by
  induction t generalizing o with
  | nil => rw [emit_nil, if_neg (by simp; omega)]
  | cons c t ih =>
    show (emit lim t (put lim c o)).mem i = _
    rw [ih]
    have hp : (put lim c o).pos = o.pos + 1 := rfl
    rw [hp]
    have hm : (put lim c o).mem i = if i = o.pos ∧ i < lim then c else o.mem i := by
      unfold put
      by_cases h : o.pos < lim
      · simp only [if_pos h]
        by_cases hi : i = o.pos
        · rw [if_pos hi, if_pos ⟨hi, by omega⟩]
        · rw [if_neg hi, if_neg (by omega)]
      · simp only [if_neg h]
        rw [if_neg (by omega)]
    by_cases h : o.pos + 1 ≤ i ∧ i < o.pos + 1 + t.length ∧ i < lim
    · rw [if_pos h, if_pos ⟨by omega, by simp; omega, h.2.2⟩]
      obtain ⟨k, hk⟩ : ∃ k, i - o.pos = k + 1 := ⟨i - o.pos - 1, by omega⟩
      rw [hk, List.getD_cons_succ]
      congr 1
      omega
    · rw [if_neg h, hm]
      by_cases hi : i = o.pos ∧ i < lim
      · rw [if_pos hi, if_pos ⟨by omega, by simp; omega, hi.2⟩, hi.1]
        simp
      · rw [if_neg hi, if_neg]
        rintro ⟨h1, h2, h3⟩
        rw [List.length_cons] at h2
        exact hi ⟨by omega, h3⟩

theorem emit_counts (lim : Nat) (t : List Byte) (o : Out) : (emit lim t o).counts = o.counts := by
  induction t generalizing o with
  | nil => rfl
  | cons c t ih => exact ih _

/-! ## Digits -/

theorem digit_table (large : Bool) : ∀ k : Fin 16,
    (if large then largeDigits else smallDigits)[k.val]? = some (digitOf large k.val) := by
  cases large <;> decide

theorem digit_get (large : Bool) (k : Nat) (h : k < 16) :
    (if large then largeDigits else smallDigits)[k]? = some (digitOf large k) := digit_table large ⟨k, h⟩

theorem numeral_lt (large : Bool) (b n : Nat) (h : n < b) : numeral large b n = [digitOf large n] := by
  rw [numeral, dif_pos (Or.inr h)]

theorem numeral_ge (large : Bool) (b n : Nat) (hb : 2 ≤ b) (h : b ≤ n) :
    numeral large b n = numeral large b (n / b) ++ [digitOf large (n % b)] := by
  conv => lhs; rw [numeral]
  rw [dif_neg (by omega)]

theorem digitLoop_zero (digs : List Byte) (b : Nat) (tmp : List Byte) : digitLoop digs b 0 tmp = some tmp := by
  rw [digitLoop, dif_pos (Or.inl rfl)]

theorem digitLoop_nat (large : Bool) (b : Nat) (hb : 8 ≤ b) (hb' : b ≤ 16) :
    ∀ (k n : Nat) (tmp : List Byte), 0 < n → n < 8 ^ k → tmp.length + k ≤ 14 →
      digitLoop (if large then largeDigits else smallDigits) b n tmp = some (tmp ++ (numeral large b n).reverse) := by
  intro k
  induction k with
  | zero => intro n tmp h0 h1; simp at h1; omega
  | succ k ih =>
    intro n tmp h0 h1 h2
    rw [digitLoop, dif_neg (by omega)]
    have hm : (n : Int).tmod b = ((n % b : Nat) : Int) := by
      rw [Int.tmod_eq_emod_of_nonneg (by omega)]; simp
    have hd : (n : Int).tdiv b = ((n / b : Nat) : Int) := by
      rw [Int.tdiv_eq_ediv_of_nonneg (by omega)]; simp
    have hlt : n % b < b := Nat.mod_lt _ (by omega)
    simp only [hm, hd]
    rw [if_neg (by omega), Int.toNat_natCast, digit_get large _ (by omega)]
    simp only
    by_cases hn : n < b
    · rw [Nat.div_eq_of_lt hn, Nat.mod_eq_of_lt hn, numeral_lt large b n hn]
      simp [digitLoop_zero]
    · rw [ih (n / b) _ (Nat.div_pos (by omega) (by omega)) ?_ (by simp; omega), numeral_ge large b n (by omega) (by omega)]
      · simp
      · rw [Nat.div_lt_iff_lt_mul (by omega)]
        have : 8 ^ (k + 1) ≤ 8 ^ k * b := by rw [Nat.pow_succ]; exact Nat.mul_le_mul_left _ hb
        omega

theorem digitLoop_neg (digs : List Byte) (b : Nat) (hb : 2 ≤ b) : ∀ (n : Nat) (num : Int) (tmp : List Byte), num.natAbs = n →
    num < 0 → digitLoop digs b num tmp = none := by
  intro n
  induction n using Nat.strongRecOn with
  | _ n ih =>
    intro num tmp hn h
    rw [digitLoop, dif_neg (by omega)]
    simp only
    by_cases hk : num.tmod b < 0 ∨ 14 ≤ tmp.length
    · rw [if_pos hk]
    · rw [if_neg hk]
      split
      · rfl
      · have e := Int.tmod_add_mul_tdiv num b
        have hneg : num.tdiv b < 0 := by
          rcases Int.lt_or_le (num.tdiv b) 0 with h' | h'
          · exact h'
          · have := Int.mul_nonneg (show (0 : Int) ≤ b by omega) h'
            omega
        refine ih (num.tdiv b).natAbs ?_ _ _ rfl hneg
        rw [Int.natAbs_tdiv, ← hn]
        exact Nat.div_lt_self (by omega) (by simp; omega)

/-! ## Numbers -/

/-- The sign a number gets. -/
def signText (f : Flags) (num : Int) : List Byte :=
  if f.sign then if num < 0 then [0x2D#8] else if f.plus then [0x2B#8] else if f.space then [0x20#8] else [] else []

/-- The prefix of the alternate form. -/
def altText (f : Flags) (base : Nat) : List Byte :=
  if f.special then
    if base = 8 then [0x30#8] else if base = 16 then [0x30#8, if f.large then 0x58#8 else 0x78#8] else []
  else []

theorem fill_nonpos (n : Int) (c : Byte) (h : n ≤ 0) : fill n c = [] := by
  unfold fill
  rw [show n.toNat = 0 by omega]; rfl

theorem fill_len (n : Int) (c : Byte) : ((fill n c).length : Int) = max n 0 := by
  unfold fill
  rw [List.length_replicate]; omega

theorem digs33 (large : Bool) : (if large then largeDigits else smallDigits).getD 33 0 = if large then 0x58#8 else 0x78#8 := by
  cases large <;> decide

theorem number_eq (lim : Nat) (o : Out) (num : Int) (base : Nat) (size p : Int) (f : Flags) (hb : 8 ≤ base) (hb' : base ≤ 16)
    (hlo : -2147483648 < num) (hhi : num < 2147483648) (hs : f.sign = true ∨ 0 ≤ num) :
    number lim o num base size p f = some (emit lim
      (field f.left f.zeropad size (signText f num ++ altText f base)
        (fill (p - (numeral f.large base num.natAbs).length) 0x30#8 ++ numeral f.large base num.natAbs)) o) := by
  have hds : (if num.natAbs = 0 then some [0x30#8]
      else digitLoop (if f.large then largeDigits else smallDigits) base num.natAbs []) =
        some (numeral f.large base num.natAbs).reverse := by
    by_cases h0 : num.natAbs = 0
    · rw [if_pos h0, h0, numeral_lt _ _ _ (by omega)]
      cases f.large <;> rfl
    · rw [if_neg h0, digitLoop_nat f.large base hb hb' 11 num.natAbs [] (by omega) (by omega) (by simp)]
      simp
  generalize hN : numeral f.large base num.natAbs = N at *
  have key : ∀ (sg : Option Byte) (num' size' : Int), num' = num.natAbs → signText f num = sg.toList →
      size' = size - sg.toList.length →
      (let size := if f.special then (if base = 16 then size' - 2 else if base = 8 then size' - 1 else size') else size'
      match if num' = 0 then some [0x30#8] else digitLoop (if f.large then largeDigits else smallDigits) base num' [] with
      | none => none
      | some tmp =>
        let i : Int := tmp.length
        let precision := if i > p then i else p
        let size := size - precision
        let o := if ¬ (f.zeropad && !f.left) = true ∧ ¬ f.left then pad lim size 0x20 o else o
        let size := if ¬ (f.zeropad && !f.left) = true ∧ ¬ f.left then min size 0 - 1 else size
        let o := putSign lim sg o
        let o := if f.special then
            if base = 8 then put lim 0x30 o
            else if base = 16 then put lim ((if f.large then largeDigits else smallDigits).getD 33 0) (put lim 0x30 o)
            else o
          else o
        let o := if ¬ f.left then pad lim size (if (f.zeropad && !f.left) = true then 0x30 else 0x20) o else o
        let size := if ¬ f.left then min size 0 - 1 else size
        let o := pad lim (precision - i) 0x30 o
        let o := tmp.reverse.foldl (fun o c => put lim c o) o
        some (pad lim size 0x20 o)) = some (emit lim
      (field f.left f.zeropad size (signText f num ++ altText f base) (fill (p - N.length) 0x30#8 ++ N)) o) := by
    intro sg num' size' e1 e2 e3
    have hds' : (if num' = 0 then some [0x30#8] else digitLoop (if f.large then largeDigits else smallDigits) base num' []) =
        some N.reverse := by
      rw [← hds, e1]
      congr 1
      simp
    simp only [hds', List.length_reverse, List.reverse_reverse, pad_emit, digs33]
    have hif : ∀ (c : Prop) [Decidable c] (t : List Byte) (o : Out),
        (if c then emit lim t o else o) = emit lim (if c then t else []) o := by
      intro c _ t o; split <;> rfl
    have hfold : ∀ o : Out, N.foldl (fun o c => put lim c o) o = emit lim N o := fun _ => rfl
    have halt : ∀ o : Out, (if f.special = true then
            if base = 8 then put lim 0x30 o
            else if base = 16 then put lim (if f.large = true then 0x58#8 else 0x78#8) (put lim 0x30 o)
            else o
          else o) = emit lim (altText f base) o := by
      intro o
      unfold altText
      repeat' split
      all_goals first | rfl | (simp_all)
    have hsize : (if f.special = true then (if base = 16 then size' - 2 else if base = 8 then size' - 1 else size') else size')
        = size - sg.toList.length - (altText f base).length := by
      unfold altText
      rw [e3]
      repeat' split
      all_goals (first | (simp; done) | (exfalso; omega))
    simp only [hfold, halt, hsize, e2, hif]
    have hsg : ∀ (o : Out), putSign lim sg o = emit lim sg.toList o := by
      intro o; cases sg <;> rfl
    rw [hsg]
    simp only [← emit_append]
    refine congrArg some (congrArg (emit lim · o) ?_)
    unfold field
    have hp : (if (N.length : Int) > p then (N.length : Int) else p) - N.length = max (p - N.length) 0 := by split <;> omega
    have hf : fill (max (p - N.length) 0) 0x30#8 = fill (p - (N.length : Int)) 0x30#8 := by
      unfold fill; congr 1; omega
    have hgap : size - ((sg.toList ++ altText f base).length : Int) - ((fill (p - N.length) 0x30#8 ++ N).length : Int)
        = size - sg.toList.length - (altText f base).length - (if (N.length : Int) > p then (N.length : Int) else p) := by
      have := fill_len (p - (N.length : Int)) 0x30#8
      simp only [List.length_append]
      split <;> omega
    have h00 : (0x30 : Byte) = 0x30#8 := rfl
    have h20 : (0x20 : Byte) = 0x20#8 := rfl
    rw [hp, h00, hf, hgap]
    generalize size - (sg.toList.length : Int) - (altText f base).length - (if (N.length : Int) > p then (N.length : Int) else p) = g
    cases f.left
    · cases f.zeropad
      · simp [fill_nonpos (min (min g 0 - 1) 0 - 1) _ (by omega), fill_nonpos (min g 0 - 1) _ (by omega)]
      · simp [fill_nonpos (min g 0 - 1) _ (by omega)]
    · simp
  unfold number
  simp only
  have hz : (if f.left then { f with zeropad := false } else f).zeropad = (f.zeropad && !f.left) := by
    cases h : f.left <;> simp [h]
  have hl : (if f.left then { f with zeropad := false } else f).left = f.left := by
    cases h : f.left <;> simp [h]
  have hsgn : (if f.left then { f with zeropad := false } else f).sign = f.sign := by
    cases h : f.left <;> simp
  have hplus : (if f.left then { f with zeropad := false } else f).plus = f.plus := by
    cases h : f.left <;> simp
  have hsp : (if f.left then { f with zeropad := false } else f).space = f.space := by
    cases h : f.left <;> simp
  have hspec : (if f.left then { f with zeropad := false } else f).special = f.special := by
    cases h : f.left <;> simp
  rw [if_neg (by omega), hz, hl, hsgn, hplus, hsp, hspec, if_neg (by omega)]
  by_cases hsig : f.sign = true
  · rw [if_pos hsig]
    by_cases hneg : num < 0
    · rw [if_pos hneg]
      exact key (some 0x2D#8) (-num) (size - 1) (by omega) (by simp [signText, hsig, hneg]) (by simp)
    · rw [if_neg hneg]
      by_cases hpl : f.plus = true
      · rw [if_pos hpl]
        exact key (some 0x2B#8) num (size - 1) (by omega) (by simp [signText, hsig, hneg, hpl]) (by simp)
      · rw [if_neg hpl]
        by_cases hspc : f.space = true
        · rw [if_pos hspc]
          exact key (some 0x20#8) num (size - 1) (by omega) (by simp [signText, hsig, hneg, hpl, hspc]) (by simp)
        · rw [if_neg hspc]
          exact key none num size (by omega) (by simp [signText, hsig, hneg, hpl, hspc]) (by simp)
  · rw [if_neg hsig]
    exact key none num size (by have := hs.resolve_left hsig; omega) (by simp [signText, hsig]) (by simp)

/-- A negative number without a sign: a read before the digits. -/
theorem number_unsigned_neg (lim : Nat) (o : Out) (num : Int) (base : Nat) (size p : Int) (f : Flags) (hb : 8 ≤ base)
    (hs : f.sign = false) (h : num < 0) : number lim o num base size p f = none := by
  unfold number
  simp only
  have hsgn : (if f.left then { f with zeropad := false } else f).sign = f.sign := by
    cases h : f.left <;> simp
  rw [hsgn, hs]
  by_cases hbb : base < 8 ∨ base > 16
  · rw [if_pos hbb]
  · rw [if_neg hbb, if_neg (by simp)]
    simp only [Bool.false_eq_true, if_false]
    rw [if_neg (by omega), digitLoop_neg _ base (by omega) _ num [] rfl h]

theorem number_min (lim : Nat) (o : Out) (base : Nat) (size p : Int) (f : Flags) (hs : f.sign = true) :
    number lim o (-2147483648) base size p f = none := by
  unfold number
  simp only
  have hsgn : (if f.left then { f with zeropad := false } else f).sign = f.sign := by
    cases h : f.left <;> simp
  rw [hsgn, hs]
  by_cases hbb : base < 8 ∨ base > 16
  · rw [if_pos hbb]
  · rw [if_neg hbb, if_pos (by simp)]

end Verif.Log
