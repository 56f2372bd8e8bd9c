import Verif.Log.Parse

/-!
# C122: formatted log lines stay in their buffer and show what the format says
-/

set_option linter.constructorNameAsVariable false

namespace Verif.Log

/-- The prefix of the alternate form as the logger shows it, for every number. -/
def codeAlt : Conv → List Byte
  | .x => [0x30#8, 0x78#8]
  | .X => [0x30#8, 0x58#8]
  | .o => [0x30#8]
  | _ => []

/-- What the logger shows for a number. It differs from `showInt` of the specification in four places: the prefix of the
alternate form is also shown for the number zero and also if the digits begin with a zero; the number zero is shown as
`0` also with the precision zero; the flag `0` is not given up when a precision is given. -/
def codeInt (conv : Conv) (flags : List Flag) (left : Bool) (w p : Int) (v : Int) : List Byte :=
  let sgn := if conv.signed then
      if v < 0 then [0x2D#8] else if .plus ∈ flags then [0x2B#8] else if .space ∈ flags then [0x20#8] else []
    else []
  let ds := numeral (conv = .X) conv.base v.natAbs
  let alt := if .hash ∈ flags then codeAlt conv else []
  field left (.zero ∈ flags) w (sgn ++ alt) (fill (p - ds.length) 0x30#8 ++ ds)

/-- Is it a conversion of integers? -/
def Conv.isInt : Conv → Bool
  | .c | .s => false
  | _ => true

/-- Numbers the logger can show: those a `long` holds, without the smallest of them. -/
def Showable (v : Int) : Prop := -2147483648 < v ∧ v < 2147483648

instance (v : Int) : Decidable (Showable v) := inferInstanceAs (Decidable (_ ∧ _))

/-- Where the logger follows the C standard for a number: see `codeInt`. `p` negative: no precision. -/
def PlainInt (conv : Conv) (flags : List Flag) (left : Bool) (p v : Int) : Prop :=
  Showable v ∧ (.zero ∈ flags → left = true ∨ p < 0) ∧ (v = 0 → p ≠ 0 ∧ (.hash ∈ flags → conv.base = 10)) ∧
    (conv = .o → .hash ∈ flags → p < 0)

/-- A conversion with its arguments for which the logger follows the C standard: a text without precision (or one that
is shorter), a number as in `PlainInt`; the width and the precision are at most `2^30`. -/
def Directive.Plain (d : Directive) (args : List Arg) : Prop :=
  ∀ w p rest, d.amounts args = some (w, p, rest) → (w.natAbs ≤ 2 ^ 30 ∧ p ≤ 2 ^ 30) ∧
    (∀ s r, d.conv = .s → rest = .str (some s) :: r → p < 0 ∨ s.length ≤ p.toNat) ∧
    (∀ r, d.conv = .s → rest = .str none :: r → p < 0 ∨ 6 ≤ p) ∧
    (∀ v r, d.conv.isInt = true → rest = .int v :: r →
      PlainInt d.conv d.flags (decide (.minus ∈ d.flags ∨ w < 0)) p (valueOf d.conv d.len v))

/-- A format with its arguments of which every piece is plain. -/
def Plain : List Item → List Arg → Prop
  | [], _ => True
  | it :: its, args =>
    (∀ d, it = .dir d → d.Plain args) ∧ ∀ t args', it.show args = some (t, args') → Plain its args'

/-- The room for the text: the buffer, cut at the end of the address space. -/
def room (buf size : U32) : Nat := min size.toNat (2 ^ 32 - buf.toNat)

/-! ## Lemmas -/

theorem field_none (l z : Bool) (pre body : List Byte) : field l z (-1) pre body = field l z 0 pre body := by
  unfold field
  simp only
  rw [fill_nonpos (-1 - (pre.length : Int) - body.length) _ (by omega), fill_nonpos (0 - (pre.length : Int) - body.length) _ (by omega),
    fill_nonpos (-1 - (pre.length : Int) - body.length) _ (by omega), fill_nonpos (0 - (pre.length : Int) - body.length) _ (by omega)]

theorem field_width (l z : Bool) (w w' : Int) (pre body : List Byte) (h1 : 0 ≤ w' → w' = w.natAbs) (h2 : w' < 0 → w' = -1 ∧ w = 0) :
    field l z w' pre body = field l z w.natAbs pre body := by
  by_cases h : 0 ≤ w'
  · rw [h1 h]
  · obtain ⟨e1, e2⟩ := h2 (by omega)
    rw [e1, e2]
    exact field_none l z pre body

theorem numeral_pos (large : Bool) (b n : Nat) : 0 < (numeral large b n).length := by
  rw [numeral]
  split <;> simp

theorem fill_prec (a : Option Amount) (p : Int) (n : Nat) (hn : 0 < n) (ha : a = none → p = -1) (c : Byte) :
    fill (precOf a p - n) c = fill (p - n) c := by
  unfold precOf
  split
  · rename_i h; rw [ha h]
  · unfold fill; congr 1; omega

theorem amounts_none (d : Directive) (args : List Arg) {w p rest} (h : d.amounts args = some (w, p, rest))
    (hp : d.precision = none) : p = -1 := by
  unfold Directive.amounts at h
  split at h
  · cases h
  · rw [hp] at h
    simp only [takeAmount, Option.some.injEq, Prod.mk.injEq] at h
    exact h.2.1.symm

/-- The text of a conversion, regrouped. -/
theorem text_eq (d : Directive) (r : List Byte) : d.text ++ r = 0x25#8 :: (d.flags.map Flag.text ++
    (widthText d.width ++ (precText d.precision ++ tail d.len d.conv r))) := by
  unfold Directive.text tail
  simp [List.append_assoc]

theorem unsigned_value (q : Byte) (s : Bool) (v : U32) (h : q ≠ 0x68) : getNum q s v = v.toInt := by
  unfold getNum
  rw [if_neg h]

theorem getNum_value (conv : Conv) (len : Len) (v : U32) (h : Showable (valueOf conv len v)) :
    getNum (qualOf len) conv.signed v = valueOf conv len v := by
  unfold Showable valueOf at h
  unfold valueOf
  cases hs : conv.signed
  · rw [hs] at h
    cases len
    · simp only at h ⊢
      rw [unsigned_value _ _ _ (by decide), BitVec.toInt_eq_toNat_cond v, if_pos (by omega)]
    · simp only [getNum, qualOf] at h ⊢
      rw [if_pos (by decide), if_neg (by simp), BitVec.toInt_eq_toNat_cond, BitVec.toNat_setWidth]
      have := (v.setWidth 16).isLt
      rw [Nat.mod_eq_of_lt (by omega), if_pos (by omega)]
    · simp only at h ⊢
      rw [unsigned_value _ _ _ (by decide), BitVec.toInt_eq_toNat_cond v, if_pos (by omega)]
  · cases len
    · simp only [getNum, qualOf]; rw [if_neg (by decide)]
    · simp only [getNum, qualOf]
      rw [if_pos (by decide), if_pos (by trivial), BitVec.toInt_signExtend_of_le (by omega)]
    · simp only [getNum, qualOf]; rw [if_neg (by decide)]

/-- The flags and the base the code takes for a conversion of integers. -/
theorem intConv_text (f : Flags) (conv : Conv) (h : conv.isInt = true) (h1 : f.large = false) (h2 : f.sign = false) :
    intConv f conv.text = some ({ f with large := decide (conv = .X), sign := conv.signed }, conv.base) := by
  obtain ⟨a, b, c, d, e, g, k⟩ := f
  simp only at h1 h2
  subst h1 h2
  cases conv <;> first | rfl | cases h

theorem conv_text_not (conv : Conv) (h : conv.isInt = true) : conv.text ≠ 0x63 ∧ conv.text ≠ 0x73 ∧ conv.text ≠ 0x70 ∧
    conv.text ≠ 0x6E ∧ conv.text ≠ 0x25 := by
  cases conv <;> first | decide | cases h

theorem convert_int (lim : Nat) (o : Out) (f : Flags) (w p : Int) (q : Byte) (conv : Conv) (v : U32) (args : List Arg)
    (h : conv.isInt = true) (h1 : f.large = false) (h2 : f.sign = false) :
    convert lim o f w p q conv.text (.int v :: args) =
      (number lim o (getNum q conv.signed v) conv.base w p
        { f with large := decide (conv = .X), sign := conv.signed }).map (·, args) := by
  obtain ⟨n1, n2, n3, n4, n5⟩ := conv_text_not conv h
  unfold convert
  rw [if_neg n1, if_neg n2, if_neg n3, if_neg n4, if_neg n5, intConv_text f conv h h1 h2]

theorem value_nonneg (conv : Conv) (len : Len) (v : U32) (h : conv.signed = false) : 0 ≤ valueOf conv len v := by
  unfold valueOf
  rw [h]
  cases len <;> exact Int.natCast_nonneg _

/-- The code on a conversion of integers. -/
theorem step_int (d : Directive) (args args' : List Arg) (w p : Int) (v : U32) (r : List Byte)
    (hw : ∀ n, d.width = some (.num n) → 0 < n) (h : d.amounts args = some (w, p, .int v :: args'))
    (hi : d.conv.isInt = true) (hv : Showable (valueOf d.conv d.len v)) (hm : w.natAbs ≤ 2 ^ 30 ∧ p ≤ 2 ^ 30) (lim : Nat) (o : Out) :
    formatLoop lim o (d.text ++ r) args = formatLoop lim (emit lim (codeInt d.conv d.flags
      (decide (.minus ∈ d.flags ∨ w < 0)) w.natAbs p (valueOf d.conv d.len v)) o) r args' := by
  obtain ⟨w', e1, e2, hp⟩ := parse_text d args _ w p r hw h hm
  rw [text_eq]
  rw [show (0x25#8 : Byte) = 0x25 from rfl, formatLoop_dir lim o _ args hp,
    convert_int _ _ _ _ _ _ _ _ _ hi (by simp [flagsOf]) (by simp [flagsOf]), getNum_value _ _ _ hv]
  have hb : 8 ≤ d.conv.base ∧ d.conv.base ≤ 16 := by cases d.conv <;> decide
  rw [number_eq _ _ _ _ _ _ _ hb.1 hb.2 hv.1 hv.2]
  · simp only [Option.map_some]
    congr 2
    unfold codeInt
    simp only
    rw [field_width _ _ w w' _ _ e1 e2, fill_prec _ _ _ (numeral_pos _ _ _) (amounts_none d args h)]
    have hz : ({ flagsOf d.flags {} with left := decide (Flag.minus ∈ d.flags ∨ w < 0) } : Flags).zeropad =
        decide (Flag.zero ∈ d.flags) := by simp [flagsOf]
    rw [hz]
    congr 1
    · congr 1
      · simp [signText, flagsOf]
      · unfold altText
        simp only [flagsOf, Bool.false_or, decide_eq_true_eq]
        split
        · cases d.conv <;> first | rfl | simp [Conv.base]
        · rfl
  · simp only
    cases hs : d.conv.signed
    · right; exact value_nonneg _ _ _ hs
    · left; rfl

/-- The code on a conversion of a character. -/
theorem step_char (d : Directive) (args args' : List Arg) (w p : Int) (v : U32) (r : List Byte)
    (hw : ∀ n, d.width = some (.num n) → 0 < n) (h : d.amounts args = some (w, p, .int v :: args'))
    (hi : d.conv = .c) (hm : w.natAbs ≤ 2 ^ 30 ∧ p ≤ 2 ^ 30) (lim : Nat) (o : Out) :
    formatLoop lim o (d.text ++ r) args = formatLoop lim (emit lim (field
      (decide (.minus ∈ d.flags ∨ w < 0)) false w.natAbs [] [v.setWidth 8]) o) r args' := by
  obtain ⟨w', e1, e2, hp⟩ := parse_text d args _ w p r hw h hm
  rw [text_eq]
  rw [show (0x25#8 : Byte) = 0x25 from rfl, formatLoop_dir lim o _ args hp, hi]
  simp only [Conv.text]
  rw [convert_char]
  simp only
  rw [field_width _ _ w w' _ _ e1 e2]

/-- The code on a conversion of a text: the precision does not matter. -/
theorem step_str (d : Directive) (args args' : List Arg) (w p : Int) (s : Option (List Byte)) (r : List Byte)
    (hw : ∀ n, d.width = some (.num n) → 0 < n) (h : d.amounts args = some (w, p, .str s :: args'))
    (hi : d.conv = .s) (hm : w.natAbs ≤ 2 ^ 30 ∧ p ≤ 2 ^ 30) (lim : Nat) (o : Out) :
    formatLoop lim o (d.text ++ r) args = formatLoop lim (emit lim (field
      (decide (.minus ∈ d.flags ∨ w < 0)) false w.natAbs [] (s.getD nullText)) o) r args' := by
  obtain ⟨w', e1, e2, hp⟩ := parse_text d args _ w p r hw h hm
  rw [text_eq]
  rw [show (0x25#8 : Byte) = 0x25 from rfl, formatLoop_dir lim o _ args hp, hi]
  simp only [Conv.text]
  rw [convert_str]
  simp only
  rw [field_width _ _ w w' _ _ e1 e2]

theorem numeral_head_o : ∀ n : Nat, 0 < n → (numeral false 8 n).head? ≠ some 0x30#8 := by
  intro n
  induction n using Nat.strongRecOn with
  | _ n ih =>
    intro h0
    by_cases h : n < 8
    · rw [numeral_lt _ _ _ h]
      have : ∀ k : Fin 8, 0 < k.val → digitOf false k.val ≠ 0x30#8 := by decide
      have := this ⟨n, h⟩ h0
      simpa using this
    · rw [numeral_ge _ _ _ (by omega) (by omega)]
      have := ih (n / 8) (by omega) (by omega)
      have hp := numeral_pos false 8 (n / 8)
      match hN : numeral false 8 (n / 8), hp with
      | a :: t, _ => rw [hN] at this; simpa using this

/-- Where the number is plain, the logger shows it as the C standard says. -/
theorem code_plain (conv : Conv) (flags : List Flag) (left : Bool) (w p v : Int) (hi : conv.isInt = true)
    (h : PlainInt conv flags left p v) :
    codeInt conv flags left w p v = showInt conv flags left w (if p < 0 then none else some p) v := by
  obtain ⟨_, h1, h2, h3⟩ := h
  have hds : digits (decide (conv = .X)) conv.base (if p < 0 then none else some p) v.natAbs =
      fill (p - (numeral (decide (conv = .X)) conv.base v.natAbs).length) 0x30#8 ++ numeral (decide (conv = .X)) conv.base v.natAbs := by
    have hl := numeral_pos (decide (conv = .X)) conv.base v.natAbs
    unfold digits
    by_cases hp : p < 0
    · rw [if_pos hp, if_neg (by simp), fill_nonpos (p - _) _ (by omega)]
      simp only [Option.getD_none]
      rw [fill_nonpos _ _ (by omega)]
    · rw [if_neg hp, if_neg]
      · simp only [Option.getD_some]
      · rintro ⟨a, b⟩
        have hv : v = 0 := by omega
        simp only [Option.some.injEq] at a
        exact (h2 hv).1 a
  unfold codeInt showInt
  simp only
  rw [hds]
  have hz : decide (Flag.zero ∈ flags) = true → (left = true ∨ (if p < 0 then (none : Option Int) else some p) = none) := by
    intro hm
    rcases h1 (of_decide_eq_true hm) with e | e
    · left; exact e
    · right; rw [if_pos e]
  have halt : (if .hash ∈ flags then codeAlt conv else []) = (if .hash ∈ flags then altPrefix conv v
      (fill (p - (numeral (decide (conv = .X)) conv.base v.natAbs).length) 0x30#8 ++
          numeral (decide (conv = .X)) conv.base v.natAbs) else []) := by
    by_cases hh : Flag.hash ∈ flags
    · rw [if_pos hh, if_pos hh]
      have hv : conv.base ≠ 10 → v ≠ 0 := fun hb h0 => hb ((h2 h0).2 hh)
      cases conv
      all_goals first
        | rfl
        | cases hi
        | skip
      · simp only [codeAlt, altPrefix]; rw [if_neg (hv (by decide))]
      · simp only [codeAlt, altPrefix]; rw [if_neg (hv (by decide))]
      · simp only [codeAlt, altPrefix]
        have hp := h3 rfl hh
        have hl := numeral_pos (decide (Conv.o = .X)) Conv.o.base v.natAbs
        rw [fill_nonpos _ _ (by omega), List.nil_append, if_neg]
        have := hv (by decide)
        exact numeral_head_o v.natAbs (by omega)
    · rw [if_neg hh, if_neg hh]
  have hfield : ∀ pre body, field left (decide (Flag.zero ∈ flags)) w pre body =
      field left (decide (Flag.zero ∈ flags ∧ (if p < 0 then (none : Option Int) else some p) = none)) w pre body := by
    intro pre body
    unfold field
    by_cases hl : left = true
    · simp [hl]
    · by_cases hm : decide (Flag.zero ∈ flags) = true
      · have hn := (hz hm).resolve_left hl
        have hm' := of_decide_eq_true hm
        simp [hl, hm', hn]
      · have hm' : Flag.zero ∉ flags := fun h => hm (decide_eq_true h)
        simp [hl, hm']
  rw [hfield, ← halt]

theorem step_item (it : Item) (args args' : List Arg) (t r : List Byte) (hw : it.Written) (h : it.show args = some (t, args'))
    (hp : ∀ d, it = .dir d → d.Plain args) (lim : Nat) (o : Out) :
    formatLoop lim o (it.text ++ r) args = formatLoop lim (emit lim t o) r args' := by
  cases it with
  | char c =>
    simp only [Item.show, Option.some.injEq, Prod.mk.injEq] at h
    obtain ⟨rfl, rfl⟩ := h
    show formatLoop lim o (c :: r) args = _
    rw [formatLoop_char _ _ _ _ _ hw]
    rfl
  | percent =>
    simp only [Item.show, Option.some.injEq, Prod.mk.injEq] at h
    obtain ⟨rfl, rfl⟩ := h
    show formatLoop lim o (0x25 :: 0x25 :: r) args = _
    rw [formatLoop_dir lim o (0x25 :: r) args (f := {}) (w := -1) (p := -1) (q := 0) (c := 0x25) (r' := r) (args' := args) rfl]
    rfl
  | dir d =>
    have hpl := hp d rfl
    simp only [Item.show] at h
    unfold Directive.show at h
    cases ha : d.amounts args with
    | none => rw [ha] at h; cases h
    | some x =>
      obtain ⟨w, p, rest⟩ := x
      rw [ha] at h
      obtain ⟨hm, q1, q2, q3⟩ := hpl w p rest ha
      simp only at h
      have hint : d.conv.isInt = true → ∀ v rs, rest = .int v :: rs →
          some (showInt d.conv d.flags (decide (.minus ∈ d.flags ∨ w < 0)) w.natAbs (if p < 0 then none else some p)
            (valueOf d.conv d.len v), rs) = some (t, args') →
          formatLoop lim o ((Item.dir d).text ++ r) args = formatLoop lim (emit lim t o) r args' := by
        intro hi v rs hr he
        subst hr
        simp only [Option.some.injEq, Prod.mk.injEq] at he
        obtain ⟨rfl, rfl⟩ := he
        have := q3 v _ hi rfl
        show formatLoop lim o (d.text ++ r) args = _
        rw [step_int d args _ w p v r hw ha hi this.1 hm, code_plain _ _ _ _ _ _ hi this]
      match hc : d.conv, rest with
      | .c, .int v :: rs =>
        rw [hc] at h
        simp only [Option.some.injEq, Prod.mk.injEq] at h
        obtain ⟨rfl, rfl⟩ := h
        exact step_char d args _ w p v r hw ha hc hm lim o
      | .c, [] => rw [hc] at h; cases h
      | .c, .str _ :: _ => rw [hc] at h; cases h
      | .c, .place :: _ => rw [hc] at h; cases h
      | .s, .str s :: rs =>
        rw [hc] at h
        simp only [Option.some.injEq, Prod.mk.injEq] at h
        obtain ⟨rfl, rfl⟩ := h
        show formatLoop lim o (d.text ++ r) args = _
        rw [step_str d args _ w p s r hw ha hc hm lim o]
        have hn : nullText = [0x3C#8, 0x4E#8, 0x55#8, 0x4C#8, 0x4C#8, 0x3E#8] := by decide
        rw [hn]
        congr 3
        split
        · rfl
        · rename_i hpn
          symm
          apply List.take_of_length_le
          cases s with
          | none =>
            have := (q2 rs hc rfl).resolve_left hpn
            simp only [Option.getD_none, List.length_cons, List.length_nil]
            omega
          | some s => exact (q1 s rs hc rfl).resolve_left hpn
      | .s, [] => rw [hc] at h; cases h
      | .s, .int _ :: _ => rw [hc] at h; cases h
      | .s, .place :: _ => rw [hc] at h; cases h
      | .d, .int v :: rs | .i, .int v :: rs | .u, .int v :: rs | .x, .int v :: rs | .X, .int v :: rs | .o, .int v :: rs =>
        exact hint (by rw [hc]; rfl) v rs rfl (by rw [hc] at h ⊢; exact h)
      | .d, [] | .i, [] | .u, [] | .x, [] | .X, [] | .o, [] => rw [hc] at h; cases h
      | .d, .str _ :: _ | .i, .str _ :: _ | .u, .str _ :: _ | .x, .str _ :: _ | .X, .str _ :: _ | .o, .str _ :: _ =>
        rw [hc] at h; cases h
      | .d, .place :: _ | .i, .place :: _ | .u, .place :: _ | .x, .place :: _ | .X, .place :: _ | .o, .place :: _ =>
        rw [hc] at h; cases h

theorem loop_items (its : List Item) : ∀ (args : List Arg) (t : List Byte), (∀ it ∈ its, it.Written) →
    showAll its args = some t → Plain its args → ∀ (lim : Nat) (o : Out),
    formatLoop lim o (its.flatMap Item.text) args = some (emit lim t o) := by
  induction its with
  | nil =>
    intro args t _ h _ lim o
    simp only [showAll, Option.some.injEq] at h
    subst h
    exact formatLoop_nil lim o args
  | cons it its ih =>
    intro args t hw h hp lim o
    unfold showAll at h
    cases hs : it.show args with
    | none => rw [hs] at h; cases h
    | some x =>
      obtain ⟨t1, args1⟩ := x
      rw [hs] at h
      simp only [Option.map_eq_some_iff] at h
      obtain ⟨u, hu, rfl⟩ := h
      rw [List.flatMap_cons, step_item it args args1 t1 _ (hw it (by simp)) hs hp.1, ih args1 u
        (fun i hi => hw i (by simp [hi])) hu (hp.2 _ _ hs), emit_append]

/-! ## The property -/

/-- For every format and every arguments: either the call is undefined (an argument is missing or of another kind, a
number cannot be shown, see below, or a width or a precision is more than `2^30`), for every buffer; or there is one text, the same for every buffer, of which the
buffer holds as much as fits, with a zero after it. Nothing outside of the buffer is written, and the length of the
whole text is returned. -/
theorem C122_buffer (fmt : List Byte) (args : List Arg) :
    (∀ buf size mem, vsnprintf buf size fmt args mem = none) ∨
    ∃ t : List Byte, ∀ buf size mem, buf ≠ 0 →
      ∃ o, vsnprintf buf size fmt args mem = some (o, t.length) ∧ holds (room buf size) t mem o.mem := by
  rcases formatLoop_raw _ fmt args rfl with h | ⟨t, h⟩
  · left
    intro buf size mem
    exact vsnprintf_none buf size fmt args mem (h _ _)
  · right
    refine ⟨t, fun buf size mem hb => ?_⟩
    obtain ⟨cs, e⟩ := h (limit buf size) { mem }
    have := vsnprintf_of buf size fmt args mem t cs e
    rw [limit_eq buf size hb] at this
    exact this

/-- A format whose pieces the logger treats as the C standard says: the text is what the specification says. -/
theorem C122_text_partial (its : List Item) (args : List Arg) (t : List Byte) (hw : ∀ it ∈ its, it.Written)
    (h : showAll its args = some t) (hp : Plain its args) (buf size : U32) (mem : Nat → Byte) (hb : buf ≠ 0) :
    ∃ o, vsnprintf buf size (its.flatMap Item.text) args mem = some (o, t.length) ∧ holds (room buf size) t mem o.mem := by
  have := vsnprintf_of buf size _ args mem t [] (by rw [loop_items its args t hw h hp]; rw [emit_same])
  rw [limit_eq buf size hb] at this
  exact this

/-- Exactly what is shown for a number, with every flag, width and precision. -/
theorem C122_number (d : Directive) (args rest : List Arg) (w p : Int) (v : U32) (hw : (Item.dir d).Written)
    (h : d.amounts args = some (w, p, .int v :: rest)) (hi : d.conv.isInt = true) (hv : Showable (valueOf d.conv d.len v))
    (hm : w.natAbs ≤ 2 ^ 30 ∧ p ≤ 2 ^ 30)
    (buf size : U32) (mem : Nat → Byte) (hb : buf ≠ 0) :
    let t := codeInt d.conv d.flags (decide (.minus ∈ d.flags ∨ w < 0)) w.natAbs p (valueOf d.conv d.len v)
    ∃ o, vsnprintf buf size d.text args mem = some (o, t.length) ∧ holds (room buf size) t mem o.mem := by
  intro t
  have e := step_int d args rest w p v [] hw h hi hv hm (limit buf size) { mem }
  rw [List.append_nil, formatLoop_nil] at e
  have := vsnprintf_of buf size _ args mem t [] (by rw [e, emit_same])
  rw [limit_eq buf size hb] at this
  exact this

/-- A numeral shows its number. -/
def numeralVal (b : Nat) (digit : Byte → Nat) (t : List Byte) : Nat := t.foldl (fun a c => a * b + digit c) 0

theorem C122_numeral (large : Bool) (b n : Nat) (hb : 2 ≤ b) (digit : Byte → Nat) (hd : ∀ k < b, digit (digitOf large k) = k) :
    numeralVal b digit (numeral large b n) = n ∧ (numeral large b n ≠ []) := by
  constructor
  · induction n using Nat.strongRecOn with
    | _ n ih =>
      by_cases h : n < b
      · rw [numeral_lt _ _ _ h]
        simp [numeralVal, hd n h]
      · rw [numeral_ge _ _ _ hb (by omega)]
        unfold numeralVal at *
        rw [List.foldl_append, ih (n / b) (Nat.div_lt_self (by omega) (by omega))]
        simp only [List.foldl_cons, List.foldl_nil]
        rw [hd _ (Nat.mod_lt _ (by omega)), Nat.mul_comm]
        exact Nat.div_add_mod n b
  · intro h
    have := numeral_pos large b n
    rw [h] at this
    simp at this

/-- `%p`: eight hexadecimal digits, for an address below `2^31`; above it (as the system registers of the processor) the
digits are taken from before the table. -/
theorem C122_pointer (v : U32) (rest : List Arg) (buf size : U32) (mem : Nat → Byte) :
    (v.toNat < 2 ^ 31 → buf ≠ 0 →
      let t := field false true 8 [] (numeral false 16 v.toNat)
      ∃ o, vsnprintf buf size [0x25#8, 0x70#8] (.int v :: rest) mem = some (o, t.length) ∧ holds (room buf size) t mem o.mem) ∧
    (2 ^ 31 ≤ v.toNat → vsnprintf buf size [0x25#8, 0x70#8] (.int v :: rest) mem = none) := by
  have hstep : ∀ lim o, formatLoop lim o [0x25, 0x70] (.int v :: rest) =
      match (number lim o v.toInt 16 8 (-1) { zeropad := true }).map (·, rest) with
      | none => none
      | some (o, args) => formatLoop lim o [] args := by
    intro lim o
    rw [formatLoop_dir lim o [0x70] (.int v :: rest) (f := {}) (w := -1) (p := -1) (q := 0) (c := 0x70) (r' := []) rfl]
    rfl
  constructor
  · intro hv hb t
    have hvi : v.toInt = v.toNat := by rw [BitVec.toInt_eq_toNat_cond, if_pos (by omega)]
    have e := hstep (limit buf size) { mem }
    rw [hvi, number_eq _ _ _ _ _ _ _ (by omega) (by omega) (by omega) (by omega) (Or.inr (by omega))] at e
    simp only [Option.map_some, formatLoop_nil, Int.natAbs_natCast] at e
    rw [fill_nonpos _ _ (by have := numeral_pos false 16 v.toNat; omega)] at e
    have := vsnprintf_of buf size [0x25#8, 0x70#8] (.int v :: rest) mem t [] (by
      rw [show [0x25#8, 0x70#8] = ([0x25, 0x70] : List Byte) from rfl, e, emit_same]; rfl)
    rw [limit_eq buf size hb] at this
    exact this
  · intro hv
    apply vsnprintf_none
    have hvi : v.toInt < 0 := by
      have := v.isLt
      rw [BitVec.toInt_eq_toNat_cond, if_neg (by omega)]; omega
    rw [show [0x25#8, 0x70#8] = ([0x25, 0x70] : List Byte) from rfl, hstep,
      number_unsigned_neg _ _ _ _ _ _ _ (by omega) rfl hvi]
    rfl

/-- The characters with a meaning after a per cent sign. -/
def meant : List Byte := "-+ #0123456789*.hlLZcspn%oXxdiu".toList.map (BitVec.ofNat 8 ·.toNat)

theorem parse_plain : ∀ c : Byte, c ∉ meant → ∀ r args, parse (c :: r) args = some ({}, -1, -1, 0, c :: r, args) := by
  intro c hc r args
  have hcond : ∀ c : Byte, c ∉ meant → (c ≠ 0x2D ∧ c ≠ 0x2B ∧ c ≠ 0x20 ∧ c ≠ 0x23 ∧ c ≠ 0x30) ∧ Text.isDigit c = false ∧ c ≠ 0x2A ∧
      c ≠ 0x2E ∧ ¬ (c = 0x68 ∨ c = 0x6C ∨ c = 0x4C ∨ c = 0x5A) := by decide +kernel
  obtain ⟨h1, h2, h3, h4, h5⟩ := hcond c hc
  unfold parse
  rw [flagLoop_stop _ _ _ h1]
  simp only
  rw [getWidth_other _ _ _ _ h2 h3]
  simp only
  rw [getPrecision.eq_def]
  simp only [if_neg h4]
  unfold getQualifier
  simp only [if_neg h5]
  rw [if_neg (by decide)]

/-- A per cent sign before a character without a meaning, and one at the end of the format, are shown as they are. -/
theorem C122_unknown (c : Byte) (hc : c ∉ meant) (args : List Arg) (buf size : U32) (mem : Nat → Byte) (hb : buf ≠ 0) :
    (∃ o, vsnprintf buf size [0x25#8, c] args mem = some (o, 2) ∧ holds (room buf size) [0x25#8, c] mem o.mem) ∧
    (∃ o, vsnprintf buf size [0x25#8] args mem = some (o, 1) ∧ holds (room buf size) [0x25#8] mem o.mem) := by
  have hconv : ∀ c : Byte, c ∉ meant → c ≠ 0x63 ∧ c ≠ 0x73 ∧ c ≠ 0x70 ∧ c ≠ 0x6E ∧ c ≠ 0x25 ∧ intConv {} c = none := by decide +kernel
  obtain ⟨n1, n2, n3, n4, n5, n6⟩ := hconv c hc
  rw [show room buf size = limit buf size from (limit_eq buf size hb).symm]
  constructor
  · refine vsnprintf_of buf size [0x25#8, c] args mem [0x25#8, c] [] ?_
    rw [show [0x25#8, c] = (0x25 :: [c] : List Byte) from rfl, formatLoop_dir _ _ _ _ (parse_plain c hc [] args)]
    unfold convert
    rw [if_neg n1, if_neg n2, if_neg n3, if_neg n4, if_neg n5, n6]
    simp only
    rw [formatLoop_nil]
    rfl
  · refine vsnprintf_of buf size [0x25#8] args mem [0x25#8] [] ?_
    rw [show [0x25#8] = (0x25 :: [] : List Byte) from rfl,
      formatLoop_end _ _ [] args (f := {}) (w := -1) (p := -1) (q := 0) (args' := args) rfl]
    rfl

/-! ### Where the code does something else -/

/-- An unsigned number of `2^31` or more, in any base: the digits are taken from before the table of digits. -/
theorem C122_large_undefined (d : Directive) (args rest : List Arg) (w p : Int) (v : U32) (r : List Byte)
    (hw : (Item.dir d).Written) (h : d.amounts args = some (w, p, .int v :: rest)) (hi : d.conv.isInt = true)
    (hs : d.conv.signed = false) (hl : d.len ≠ .h) (hv : 2 ^ 31 ≤ v.toNat) (hm : w.natAbs ≤ 2 ^ 30 ∧ p ≤ 2 ^ 30)
    (buf size : U32) (mem : Nat → Byte) :
    vsnprintf buf size (d.text ++ r) args mem = none := by
  apply vsnprintf_none
  obtain ⟨w', e1, e2, hp⟩ := parse_text d args _ w p r hw h hm
  rw [text_eq]
  rw [show (0x25#8 : Byte) = 0x25 from rfl, formatLoop_dir _ _ _ args hp,
    convert_int _ _ _ _ _ _ _ _ _ hi (by simp [flagsOf]) (by simp [flagsOf])]
  have hn : getNum (qualOf d.len) d.conv.signed v < 0 := by
    unfold getNum
    rw [if_neg (by cases hd : d.len <;> first | decide | exact absurd hd hl), BitVec.toInt_eq_toNat_cond, if_neg (by omega)]
    have := v.isLt
    omega
  have hb : 8 ≤ d.conv.base := by cases d.conv <;> decide
  rw [number_unsigned_neg _ _ _ _ _ _ _ hb (by simp [hs]) hn]
  rfl

/-- The smallest signed number: its negation overflows. -/
theorem C122_smallest_undefined (d : Directive) (args rest : List Arg) (w p : Int) (r : List Byte)
    (hw : (Item.dir d).Written) (h : d.amounts args = some (w, p, .int 0x80000000 :: rest))
    (hs : d.conv.signed = true) (hl : d.len ≠ .h) (hm : w.natAbs ≤ 2 ^ 30 ∧ p ≤ 2 ^ 30)
    (buf size : U32) (mem : Nat → Byte) :
    vsnprintf buf size (d.text ++ r) args mem = none := by
  apply vsnprintf_none
  obtain ⟨w', e1, e2, hp⟩ := parse_text d args _ w p r hw h hm
  rw [text_eq]
  rw [show (0x25#8 : Byte) = 0x25 from rfl, formatLoop_dir _ _ _ args hp,
    convert_int _ _ _ _ _ _ _ _ _ (by cases hc : d.conv <;> simp [hc, Conv.signed, Conv.isInt] at hs ⊢)
      (by simp [flagsOf]) (by simp [flagsOf])]
  have hn : getNum (qualOf d.len) d.conv.signed 0x80000000 = -2147483648 := by
    unfold getNum
    rw [if_neg (by cases hd : d.len <;> first | decide | exact absurd hd hl)]
    decide
  rw [hn, number_min _ _ _ _ _ _ (by simp [hs])]
  rfl

/-- A precision does not shorten a text. -/
theorem C122_text_not_shortened (d : Directive) (args rest : List Arg) (w p : Int) (s : List Byte) (hw : (Item.dir d).Written)
    (h : d.amounts args = some (w, p, .str (some s) :: rest)) (hc : d.conv = .s)
    (hm : w.natAbs ≤ 2 ^ 30 ∧ p ≤ 2 ^ 30)
    (buf size : U32) (mem : Nat → Byte) (hb : buf ≠ 0) :
    let t := field (decide (.minus ∈ d.flags ∨ w < 0)) false w.natAbs [] s
    ∃ o, vsnprintf buf size d.text args mem = some (o, t.length) ∧ holds (room buf size) t mem o.mem := by
  intro t
  have e := step_str d args rest w p (some s) [] hw h hc hm (limit buf size) { mem }
  rw [List.append_nil, formatLoop_nil] at e
  have := vsnprintf_of buf size _ args mem t [] (by rw [e, emit_same]; rfl)
  rw [limit_eq buf size hb] at this
  exact this

/-- Four conversions that show something else than the C standard says: `%08.3d` of 5, `%#x` of 0, `%.0d` of 0 and
`%#.5o` of 8. -/
theorem C122_deviations :
    (codeInt .d [.zero] false 8 3 5 = "00000005".toList.map (BitVec.ofNat 8 ·.toNat) ∧
      showInt .d [.zero] false 8 (some 3) 5 = "     005".toList.map (BitVec.ofNat 8 ·.toNat)) ∧
    (codeInt .x [.hash] false 0 (-1) 0 = "0x0".toList.map (BitVec.ofNat 8 ·.toNat) ∧
      showInt .x [.hash] false 0 none 0 = "0".toList.map (BitVec.ofNat 8 ·.toNat)) ∧
    (codeInt .d [] false 0 0 0 = "0".toList.map (BitVec.ofNat 8 ·.toNat) ∧ showInt .d [] false 0 (some 0) 0 = []) ∧
    (codeInt .o [.hash] false 0 5 8 = "000010".toList.map (BitVec.ofNat 8 ·.toNat) ∧
      showInt .o [.hash] false 0 (some 5) 8 = "00010".toList.map (BitVec.ofNat 8 ·.toNat)) := by
  decide +kernel

/-! ### The line of the log -/

theorem cstr_of (mem : Nat → Byte) (k n : Nat) (hk : k < n) (h : ∀ i < k, mem i ≠ 0) (h0 : mem k = 0) :
    cstr mem n = (List.range k).map mem := by
  unfold cstr
  obtain ⟨m, rfl⟩ : ∃ m, n = k + (m + 1) := ⟨n - k - 1, by omega⟩
  rw [List.range_add, List.map_append, List.takeWhile_append_of_pos]
  · rw [List.range_succ_eq_map]
    simp [h0]
  · intro a ha
    simp only [List.mem_map, List.mem_range] at ha
    obtain ⟨i, hi, rfl⟩ := ha
    simpa using h i hi

theorem printLoop_numeral : ∀ (fuel value : Nat) (digits : Int) (acc : List Byte), value < 10 ^ fuel → 0 < fuel → digits ≤ 1 →
    Text.printLoop 10 fuel value digits acc = numeral false 10 value ++ acc := by
  intro fuel
  induction fuel with
  | zero => intro _ _ _ _ h; omega
  | succ fuel ih =>
    intro value digits acc h _ hd
    have hc : ∀ k : Fin 10, Text.digitChar k.val = digitOf false k.val := by decide
    have hm : value % 10 < 10 := Nat.mod_lt _ (by omega)
    unfold Text.printLoop
    simp only
    have hcm : Text.digitChar (value % 10) = digitOf false (value % 10) := hc ⟨value % 10, hm⟩
    rw [hcm]
    by_cases hv : value < 10
    · rw [if_neg (by rw [Nat.div_eq_of_lt hv]; omega), numeral_lt _ _ _ hv, Nat.mod_eq_of_lt hv]
      rfl
    · have h10 : value / 10 < 10 ^ fuel := by
        rw [Nat.div_lt_iff_lt_mul (by omega)]; rw [Nat.pow_succ] at h; exact h
      have hf : 0 < fuel := by
        rcases Nat.eq_zero_or_pos fuel with e | e
        · rw [e] at h; omega
        · exact e
      rw [if_pos (by omega), ih _ _ _ h10 hf (by omega), numeral_ge _ _ value (by omega) (by omega)]
      simp

/-- A line of the log: the milliseconds (the last six digits), a colon and a blank, the text as far as 255 characters
hold it, and the end of the line. -/
theorem C122_line_partial (its : List Item) (args : List Arg) (t : List Byte) (hw : ∀ it ∈ its, it.Written)
    (h : showAll its args = some t) (hp : Plain its args) (hz : ∀ c ∈ t, c ≠ 0) (buf millis : U32) (stack : Nat → Byte)
    (hb : buf ≠ 0) (hb' : buf.toNat + 256 ≤ 2 ^ 32) :
    serPrintf buf millis stack (its.flatMap Item.text) args =
      some (numeral false 10 (millis.toNat % 1000000) ++ [0x3A#8, 0x20#8] ++ t.take 255 ++ [0x0D#8, 0x0A#8]) := by
  obtain ⟨o, e, hh⟩ := C122_text_partial its args t hw h hp buf 256 stack hb
  have hr : room buf 256 = 256 := by unfold room; simp; omega
  rw [hr] at hh
  unfold serPrintf
  rw [e]
  simp only
  have hn : Text.printUInt (millis % 1000000) 10 (-1) = some (numeral false 10 (millis.toNat % 1000000)) := by
    have hv : (millis % 1000000).toNat = millis.toNat % 1000000 := by simp [BitVec.toNat_umod]
    have hlt : millis.toNat % 1000000 < 1000000 := Nat.mod_lt _ (by omega)
    unfold Text.printUInt
    simp only [hv]
    rw [if_neg (show ¬ 10 < 2 by omega), printLoop_numeral _ _ _ _ ?_ (by simp) (by omega)]
    · rw [List.append_nil, if_pos]
      have hl : ∀ (k n : Nat), n < 10 ^ (k + 1) → (numeral false 10 n).length ≤ k + 1 := by
        intro k
        induction k with
        | zero => intro n hn; rw [numeral_lt _ _ _ (by omega)]; simp
        | succ k ih =>
          intro n hn
          by_cases h10 : n < 10
          · rw [numeral_lt _ _ _ h10]; simp
          · rw [numeral_ge _ _ _ (by omega) (by omega), List.length_append]
            have := ih (n / 10) (by rw [Nat.div_lt_iff_lt_mul (by omega)]; rw [Nat.pow_succ] at hn; exact hn)
            simp; omega
      have := hl 5 _ (show millis.toNat % 1000000 < 10 ^ (5 + 1) by omega)
      show _ ≤ 33
      omega
    · exact Nat.lt_of_lt_of_le hlt (by decide)
  rw [hn]
  simp only [Option.map_some]
  have hc : cstr o.mem 256 = t.take 255 := by
    have hm : ∀ i < min t.length 255, o.mem i = t.getD i 0 := by
      intro i hi
      rw [hh i, if_pos ⟨by omega, by omega⟩]
    rw [cstr_of o.mem (min t.length 255) 256 (by omega)]
    · apply List.ext_getElem
      · simp; omega
      · intro i h1 h2
        simp only [List.length_map, List.length_range] at h1
        simp only [List.getElem_map, List.getElem_range, List.getElem_take]
        rw [hm i h1, List.getD_eq_getElem?_getD, List.getElem?_eq_getElem (by omega)]
        rfl
    · intro i hi
      rw [hm i hi, List.getD_eq_getElem?_getD, List.getElem?_eq_getElem (by omega)]
      exact hz _ (List.getElem_mem _)
    · rw [hh, if_neg (by omega), if_pos (by omega)]
  rw [hc]

/-! ## The hypotheses can be met -/

/-- `"T=%-4d|%+05d %#*x%%%.3u%s%hi"`. -/
def sample : List Item :=
  [.char 0x54, .char 0x3D, .dir { flags := [.minus], width := some (.num 4), conv := .d }, .char 0x7C,
   .dir { flags := [.plus, .zero], width := some (.num 5), conv := .d }, .char 0x20,
   .dir { flags := [.hash], width := some .arg, conv := .x }, .percent, .dir { precision := some (.num 3), conv := .u },
   .dir { conv := .s }, .dir { len := .h, conv := .i }]

/-- Its arguments: 21, -7, the width -8 for `%#*x`, 0xBEEF, 5, a text, and 0x1FFFE, which is -2 as a `short`. -/
def sampleArgs : List Arg := [.int 21, .int (-7), .int (-8), .int 0xBEEF, .int 5, .str (some [0x6F#8, 0x6B#8]), .int 0x1FFFE]

example : sample.flatMap Item.text = "T=%-4d|%+05d %#*x%%%.3u%s%hi".toList.map (BitVec.ofNat 8 ·.toNat) := by decide +kernel

theorem sample_show : showAll sample sampleArgs = some ("T=21  |-0007 0xbeef  %005ok-2".toList.map (BitVec.ofNat 8 ·.toNat)) := by
  decide +kernel

theorem sample_written : ∀ it ∈ sample, it.Written := by
  unfold sample
  simp only [List.mem_cons, List.not_mem_nil, or_false, forall_eq_or_imp, forall_eq, Item.Written]
  refine ⟨by decide, by decide, ?_, by decide, ?_, by decide, ?_, trivial, ?_, ?_, ?_⟩ <;>
    (intro n hn; simp at hn; try omega)

theorem plain_int (d : Directive) (args rest : List Arg) (w p : Int) (v : U32) (h : d.amounts args = some (w, p, .int v :: rest))
    (hm : w.natAbs ≤ 2 ^ 30 ∧ p ≤ 2 ^ 30)
    (hp : PlainInt d.conv d.flags (decide (.minus ∈ d.flags ∨ w < 0)) p (valueOf d.conv d.len v)) : d.Plain args := by
  intro w' p' rest' h'
  rw [h] at h'
  simp only [Option.some.injEq, Prod.mk.injEq] at h'
  obtain ⟨rfl, rfl, rfl⟩ := h'
  refine ⟨hm, by intro _ _ _ e; simp at e, by intro _ _ e; simp at e, ?_⟩
  intro v' r _ e
  simp only [List.cons.injEq, Arg.int.injEq] at e
  rw [← e.1]
  exact hp

instance (conv : Conv) (flags : List Flag) (left : Bool) (p v : Int) : Decidable (PlainInt conv flags left p v) := by
  unfold PlainInt; infer_instance

theorem sample_plain : Plain sample sampleArgs := by
  unfold sample sampleArgs
  have dir : ∀ {d d' : Directive} {args : List Arg}, d.Plain args → Item.dir d = .dir d' → d'.Plain args := by
    intro d d' args h e; cases e; exact h
  refine ⟨by simp, ?_⟩; rintro _ _ ⟨⟩
  refine ⟨by simp, ?_⟩; rintro _ _ ⟨⟩
  refine ⟨fun d => dir (plain_int _ _ _ 4 (-1) 21 rfl (by decide) (by decide)), ?_⟩; rintro _ _ ⟨⟩
  refine ⟨by simp, ?_⟩; rintro _ _ ⟨⟩
  refine ⟨fun d => dir (plain_int _ _ _ 5 (-1) (-7) rfl (by decide) (by decide)), ?_⟩; rintro _ _ ⟨⟩
  refine ⟨by simp, ?_⟩; rintro _ _ ⟨⟩
  refine ⟨fun d => dir (plain_int _ _ _ (-8) (-1) 0xBEEF rfl (by decide) (by decide)), ?_⟩; rintro _ _ ⟨⟩
  refine ⟨by simp, ?_⟩; rintro _ _ ⟨⟩
  refine ⟨fun d => dir (plain_int _ _ _ 0 3 5 rfl (by decide) (by decide)), ?_⟩; rintro _ _ ⟨⟩
  refine ⟨fun d => dir ?_, ?_⟩
  · intro w p rest h
    cases h
    exact ⟨by decide, fun _ _ _ _ => Or.inl (by decide), fun _ _ _ => Or.inl (by decide), fun _ _ h => by cases h⟩
  rintro _ _ ⟨⟩
  refine ⟨fun d => dir (plain_int _ _ _ 0 (-1) 0x1FFFE rfl (by decide) (by decide)), ?_⟩; rintro _ _ ⟨⟩
  trivial

/-- `C122_text_partial` and `C122_line_partial` at work: a buffer of ten bytes holds `T=21  |-0` and a zero; the line. -/
example : ∃ o, vsnprintf 0x10000100 10 (sample.flatMap Item.text) sampleArgs (fun _ => 0xAA#8) = some (o, 29) ∧
    (List.range 11).map o.mem = "T=21  |-0".toList.map (BitVec.ofNat 8 ·.toNat) ++ [0#8, 0xAA#8] := by
  obtain ⟨o, e, h⟩ := C122_text_partial sample sampleArgs _ sample_written sample_show sample_plain 0x10000100 10 (fun _ => 0xAA#8)
    (by decide)
  have hl : ("T=21  |-0007 0xbeef  %005ok-2".toList.map fun c => BitVec.ofNat 8 c.toNat).length = 29 := by decide +kernel
  have hr : room 0x10000100 10 = 10 := by decide
  rw [hl] at e
  refine ⟨o, e, ?_⟩
  have : (List.range 11).map o.mem = (List.range 11).map fun i =>
      if i < 29 ∧ i + 1 < 10 then ("T=21  |-0007 0xbeef  %005ok-2".toList.map fun c => BitVec.ofNat 8 c.toNat).getD i 0
      else if (i = 29 ∧ i < 10) ∨ (i + 1 = 10 ∧ 10 ≤ 29) then 0 else 0xAA#8 := by
    refine List.map_congr_left fun i _ => ?_
    have := h i
    rw [hl, hr] at this
    exact this
  rw [this]
  decide +kernel

example : serPrintf 0x10001000 12345678 (fun _ => 0xAA#8) (sample.flatMap Item.text) sampleArgs =
    some ("345678: T=21  |-0007 0xbeef  %005ok-2\r\n".toList.map (BitVec.ofNat 8 ·.toNat)) := by
  rw [C122_line_partial sample sampleArgs _ sample_written sample_show sample_plain (by decide +kernel) 0x10001000 12345678 _
    (by decide) (by decide)]
  decide +kernel

/-- A case of `C122_large_undefined` and `C122_smallest_undefined`: `%x` of 0xFFFFFFFF, `%d` of -2147483648. -/
example : vsnprintf 0x10000100 10 ((⟨[], none, none, .none, .x⟩ : Directive).text ++ []) [.int 0xFFFFFFFF] (fun _ => 0) = none ∧
    vsnprintf 0x10000100 10 ((⟨[], none, none, .none, .d⟩ : Directive).text ++ []) [.int 0x80000000] (fun _ => 0) = none :=
  ⟨C122_large_undefined _ _ [] 0 (-1) 0xFFFFFFFF [] (by intro n h; cases h) rfl rfl rfl (by decide) (by decide) (by decide) _ _ _,
   C122_smallest_undefined _ _ [] 0 (-1) [] (by intro n h; cases h) rfl rfl (by decide) (by decide) _ _ _⟩

/-- A case of `C122_text_not_shortened`: `%.2s` shows all of a text of four characters. -/
example : ∃ o, vsnprintf 0x10000100 10 (Directive.text { precision := some (.num 2), conv := .s }) [.str (some [1#8, 2#8, 3#8, 4#8])]
    (fun _ => 0) = some (o, 4) := by
  obtain ⟨o, e, _⟩ := C122_text_not_shortened { precision := some (.num 2), conv := .s } [.str (some [1#8, 2#8, 3#8, 4#8])] [] 0 2
    [1#8, 2#8, 3#8, 4#8] (by intro n h; cases h) rfl rfl (by decide) 0x10000100 10 (fun _ => 0) (by decide)
  exact ⟨o, e⟩

example : (0x79#8 : Byte) ∉ meant := by decide

/-- A case of `C122_number` outside of `Plain`: `%08.3d` of 5. -/
example : ∃ o, vsnprintf 0x10000100 10 (Directive.text { flags := [.zero], width := some (.num 8), precision := some (.num 3), conv := .d })
    [.int 5] (fun _ => 0) = some (o, 8) := by
  obtain ⟨o, e, _⟩ := C122_number { flags := [.zero], width := some (.num 8), precision := some (.num 3), conv := .d } [.int 5] [] 8 3 5
    (by intro n h; cases h; decide) rfl rfl (by decide) (by decide) 0x10000100 10 (fun _ => 0) (by decide)
  refine ⟨o, e.trans ?_⟩
  congr 2
  decide +kernel

end Verif.Log
