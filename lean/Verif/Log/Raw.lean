import Verif.Log.Lemmas

/-! # Every format writes a text that does not depend on the buffer -/

namespace Verif.Log

theorem emit_setCounts (lim : Nat) (t : List Byte) (o : Out) (cs : List Nat) :
    emit lim t { o with counts := cs } = { emit lim t o with counts := cs } := by
  induction t generalizing o with
  | nil => rfl
  | cons c t ih => exact ih (put lim c o)

theorem emit_same (lim : Nat) (t : List Byte) (o : Out) : { emit lim t o with counts := o.counts } = emit lim t o := by
  rw [← emit_setCounts]

theorem number_raw (num : Int) (base : Nat) (size p : Int) (f : Flags) (hb : 8 ≤ base) (hb' : base ≤ 16)
    (hlo : -2147483648 ≤ num) (hhi : num < 2147483648) :
    (∀ lim o, number lim o num base size p f = none) ∨ ∃ t, ∀ lim o, number lim o num base size p f = some (emit lim t o) := by
  by_cases hm : num = -2147483648
  · left
    intro lim o
    cases hs : f.sign
    · exact number_unsigned_neg lim o num base size p f hb hs (by omega)
    · rw [hm]; exact number_min lim o base size p f hs
  · by_cases hs : f.sign = true ∨ 0 ≤ num
    · right
      exact ⟨_, fun lim o => number_eq lim o num base size p f hb hb' (by omega) hhi hs⟩
    · left
      intro lim o
      exact number_unsigned_neg lim o num base size p f hb (by cases h : f.sign <;> simp_all) (by omega)

theorem toInt_range (v : U32) : -2147483648 ≤ v.toInt ∧ v.toInt < 2147483648 := by
  have := v.isLt
  rw [BitVec.toInt_eq_toNat_cond]
  split <;> omega

theorem getNum_range (q : Byte) (s : Bool) (v : U32) : -2147483648 ≤ getNum q s v ∧ getNum q s v < 2147483648 := by
  unfold getNum
  split <;> exact toInt_range _

theorem intConv_base (f : Flags) (c : Byte) (f' : Flags) (b : Nat) (h : intConv f c = some (f', b)) : 8 ≤ b ∧ b ≤ 16 := by
  unfold intConv at h
  repeat' split at h
  all_goals (simp at h; try omega)

theorem convert_char (lim : Nat) (o : Out) (f : Flags) (w p : Int) (q : Byte) (v : U32) (args : List Arg) :
    convert lim o f w p q 0x63#8 (.int v :: args) = some (emit lim (field f.left false w [] [v.setWidth 8]) o, args) := by
  unfold convert
  rw [if_pos (by decide)]
  simp only [pad_emit, put_emit]
  unfold field
  cases f.left
  · simp [← emit_append, fill_nonpos (min (w - 1) 0 - 1) _ (by omega)]
  · simp [← emit_append]

theorem convert_str (lim : Nat) (o : Out) (f : Flags) (w p : Int) (q : Byte) (s : Option (List Byte)) (args : List Arg) :
    convert lim o f w p q 0x73#8 (.str s :: args) = some (emit lim (field f.left false w [] (s.getD nullText)) o, args) := by
  unfold convert
  rw [if_neg (by decide), if_pos (by decide)]
  have hfold : ∀ o : Out, (s.getD nullText).foldl (fun o c => put lim c o) o = emit lim (s.getD nullText) o := fun _ => rfl
  simp only [pad_emit, hfold]
  generalize s.getD nullText = t
  unfold field
  cases f.left
  · simp [← emit_append, fill_nonpos (min w t.length - 1 - t.length) _ (by omega)]
  · simp [← emit_append]

theorem convert_raw (f : Flags) (w p : Int) (q c : Byte) (args : List Arg) :
    (∀ lim o, convert lim o f w p q c args = none) ∨
    ∃ t args', ∀ lim o, ∃ cs, convert lim o f w p q c args = some ({ emit lim t o with counts := cs }, args') := by
  by_cases h1 : c = 0x63
  · subst h1
    match args with
    | [] => left; intros; rfl
    | .str s :: _ => left; intros; rfl
    | .place :: _ => left; intros; rfl
    | .int v :: args =>
      right
      exact ⟨_, args, fun lim o => ⟨o.counts, by rw [emit_same]; exact convert_char lim o f w p q v args⟩⟩
  · by_cases h2 : c = 0x73
    · subst h2
      match args with
      | [] => left; intros; rfl
      | .int s :: _ => left; intros; rfl
      | .place :: _ => left; intros; rfl
      | .str s :: args =>
        right
        exact ⟨_, args, fun lim o => ⟨o.counts, by rw [emit_same]; exact convert_str lim o f w p q s args⟩⟩
    · by_cases h3 : c = 0x70
      · unfold convert
        simp only [if_neg h1, if_neg h2, if_pos h3]
        match args with
        | [] => left; intros; rfl
        | .str s :: _ => left; intros; rfl
        | .place :: _ => left; intros; rfl
        | .int v :: args =>
          have hr := toInt_range v
          by_cases hw : w = -1
          · simp only [if_pos hw]
            rcases number_raw v.toInt 16 8 p { f with zeropad := true } (by omega) (by omega) hr.1 hr.2 with h | ⟨t, h⟩
            · left; intro lim o; rw [h]; rfl
            · right; exact ⟨t, args, fun lim o => ⟨o.counts, by rw [h, emit_same]; rfl⟩⟩
          · simp only [if_neg hw]
            rcases number_raw v.toInt 16 w p f (by omega) (by omega) hr.1 hr.2 with h | ⟨t, h⟩
            · left; intro lim o; rw [h]; rfl
            · right; exact ⟨t, args, fun lim o => ⟨o.counts, by rw [h, emit_same]; rfl⟩⟩
      · by_cases h4 : c = 0x6E
        · unfold convert
          simp only [if_neg h1, if_neg h2, if_neg h3, if_pos h4]
          match args with
          | [] => left; intros; rfl
          | .str s :: _ => left; intros; rfl
          | .int _ :: _ => left; intros; rfl
          | .place :: args => right; exact ⟨[], args, fun lim o => ⟨_, rfl⟩⟩
        · by_cases h5 : c = 0x25
          · unfold convert
            simp only [if_neg h1, if_neg h2, if_neg h3, if_neg h4, if_pos h5]
            right; exact ⟨[0x25], args, fun lim o => ⟨o.counts, by rw [emit_same]; rfl⟩⟩
          · unfold convert
            simp only [if_neg h1, if_neg h2, if_neg h3, if_neg h4, if_neg h5]
            cases hc : intConv f c with
            | none => right; exact ⟨[0x25, c], args, fun lim o => ⟨o.counts, by rw [emit_same]; rfl⟩⟩
            | some x =>
              obtain ⟨f', b⟩ := x
              match args with
              | [] => left; intros; rfl
              | .str s :: _ => left; intros; rfl
              | .place :: _ => left; intros; rfl
              | .int v :: args =>
                have hb := intConv_base _ _ _ _ hc
                have hr := getNum_range q f'.sign v
                rcases number_raw (getNum q f'.sign v) b w p f' hb.1 hb.2 hr.1 hr.2 with h | ⟨t, h⟩
                · left; intro lim o; simp only; rw [h]; rfl
                · right; exact ⟨t, args, fun lim o => ⟨o.counts, by simp only; rw [h, emit_same]; rfl⟩⟩

theorem formatLoop_nil (lim : Nat) (o : Out) (args : List Arg) : formatLoop lim o [] args = some o := by
  rw [formatLoop]

theorem formatLoop_char (lim : Nat) (o : Out) (c : Byte) (r : List Byte) (args : List Arg) (h : c ≠ 0x25) :
    formatLoop lim o (c :: r) args = formatLoop lim (put lim c o) r args := by
  rw [formatLoop, if_pos h]

theorem formatLoop_none (lim : Nat) (o : Out) (r : List Byte) (args : List Arg) (h : parse r args = none) :
    formatLoop lim o (0x25 :: r) args = none := by
  rw [formatLoop, if_neg (by simp)]
  split
  · rfl
  · rename_i h'; rw [h] at h'; cases h'
  · rename_i h'; rw [h] at h'; cases h'

theorem formatLoop_end (lim : Nat) (o : Out) (r : List Byte) (args : List Arg) {f w p q args'}
    (h : parse r args = some (f, w, p, q, [], args')) :
    formatLoop lim o (0x25 :: r) args = some (put lim 0x25 o) := by
  rw [formatLoop, if_neg (by simp)]
  split
  · rename_i h'; rw [h] at h'; cases h'
  · rw [formatLoop_nil]
  · rename_i h'; rw [h] at h'; cases h'

theorem formatLoop_dir (lim : Nat) (o : Out) (r : List Byte) (args : List Arg) {f w p q c r' args'}
    (h : parse r args = some (f, w, p, q, c :: r', args')) :
    formatLoop lim o (0x25 :: r) args =
      match convert lim o f w p q c args' with
      | none => none
      | some (o, args) => formatLoop lim o r' args := by
  rw [formatLoop, if_neg (by simp)]
  split
  · rename_i h'; rw [h] at h'; cases h'
  · rename_i h'; rw [h] at h'; cases h'
  · rename_i h'
    rw [h] at h'
    cases h'
    rfl

theorem formatLoop_raw : ∀ (n : Nat) (fmt : List Byte) (args : List Arg), fmt.length = n →
    (∀ lim o, formatLoop lim o fmt args = none) ∨
    ∃ t, ∀ lim o, ∃ cs, formatLoop lim o fmt args = some { emit lim t o with counts := cs } := by
  intro n
  induction n using Nat.strongRecOn with
  | _ n ih =>
    intro fmt args hn
    match fmt with
    | [] => right; exact ⟨[], fun lim o => ⟨o.counts, by rw [formatLoop_nil, emit_same]; rfl⟩⟩
    | c :: r =>
      rw [List.length_cons] at hn
      by_cases hc : c = 0x25
      · subst hc
        cases hp : parse r args with
        | none => left; intro lim o; exact formatLoop_none lim o r args hp
        | some x =>
          obtain ⟨f, w, p, q, r', args'⟩ := x
          have hle := parse_le hp
          simp only at hle
          match r' with
          | [] => right; exact ⟨[0x25], fun lim o => ⟨o.counts, by rw [formatLoop_end lim o r args hp, emit_same]; rfl⟩⟩
          | c :: r' =>
            rw [List.length_cons] at hle
            rcases convert_raw f w p q c args' with h | ⟨t, args2, h⟩
            · left; intro lim o; rw [formatLoop_dir lim o r args hp, h]
            · rcases ih r'.length (by omega) r' args2 rfl with h' | ⟨u, h'⟩
              · left
                intro lim o
                obtain ⟨cs, e⟩ := h lim o
                rw [formatLoop_dir lim o r args hp, e]
                exact h' _ _
              · right
                refine ⟨t ++ u, fun lim o => ?_⟩
                obtain ⟨cs, e⟩ := h lim o
                rw [formatLoop_dir lim o r args hp, e]
                obtain ⟨cs2, e2⟩ := h' lim { emit lim t o with counts := cs }
                refine ⟨cs2, ?_⟩
                simp only
                rw [e2, emit_setCounts, emit_append]
      · rcases ih r.length (by omega) r args rfl with h' | ⟨u, h'⟩
        · left; intro lim o; rw [formatLoop_char _ _ _ _ _ hc]; exact h' _ _
        · right
          refine ⟨c :: u, fun lim o => ?_⟩
          obtain ⟨cs, e⟩ := h' lim (put lim c o)
          refine ⟨cs, ?_⟩
          rw [formatLoop_char _ _ _ _ _ hc, e]
          rfl

theorem vsnprintf_of (buf size : U32) (fmt : List Byte) (args : List Arg) (mem : Nat → Byte) (t : List Byte) (cs : List Nat)
    (h : formatLoop (limit buf size) { mem } fmt args = some { emit (limit buf size) t { mem } with counts := cs }) :
    ∃ o, vsnprintf buf size fmt args mem = some (o, t.length) ∧ holds (limit buf size) t mem o.mem := by
  unfold vsnprintf
  simp only [h]
  have hp : (emit (limit buf size) t { mem }).pos = t.length := by rw [emit_pos]; simp
  refine ⟨_, by rw [hp], ?_⟩
  intro i
  have hm := emit_mem (limit buf size) t { mem } i
  simp only [Nat.zero_le, true_and, Nat.zero_add, Nat.sub_zero] at hm
  generalize limit buf size = lim at *
  dsimp only
  by_cases h1 : t.length < lim
  · rw [if_pos h1]
    by_cases hi : i = t.length
    · rw [if_pos hi, if_neg (by omega), if_pos (Or.inl ⟨hi, by omega⟩)]
    · rw [if_neg hi, hm]
      by_cases h2 : i < t.length ∧ i < lim
      · rw [if_pos h2, if_pos ⟨h2.1, by omega⟩]
      · rw [if_neg h2, if_neg (by omega), if_neg (by omega)]
  · rw [if_neg h1]
    by_cases h0 : lim > 0
    · rw [if_pos h0]
      by_cases hi : i = lim - 1
      · rw [if_pos hi, if_neg (by omega), if_pos (Or.inr ⟨by omega, by omega⟩)]
      · rw [if_neg hi, hm]
        by_cases h2 : i < t.length ∧ i < lim
        · rw [if_pos h2, if_pos ⟨h2.1, by omega⟩]
        · rw [if_neg h2, if_neg (by omega), if_neg (by omega)]
    · rw [if_neg h0, hm, if_neg (by omega), if_neg (by omega), if_neg (by omega)]

theorem vsnprintf_none (buf size : U32) (fmt : List Byte) (args : List Arg) (mem : Nat → Byte)
    (h : formatLoop (limit buf size) { mem } fmt args = none) : vsnprintf buf size fmt args mem = none := by
  unfold vsnprintf
  simp only [h]

theorem limit_eq (buf size : U32) (h : buf ≠ 0) : limit buf size = min size.toNat (2 ^ 32 - buf.toNat) := by
  have hb := buf.isLt
  have hs := size.isLt
  have h0 : 0 < buf.toNat := by
    rcases Nat.eq_zero_or_pos buf.toNat with e | e
    · exact absurd (BitVec.eq_of_toNat_eq e) h
    · exact e
  have e1 : (buf - 1).toNat = buf.toNat - 1 := by
    rw [BitVec.toNat_sub]; simp; omega
  have e2 : (buf + size - 1).toNat = (buf.toNat + size.toNat - 1) % 2 ^ 32 := by
    rw [BitVec.toNat_sub, BitVec.toNat_add]; simp; omega
  have e3 : (BitVec.allOnes 32 - buf + 1).toNat = 2 ^ 32 - buf.toNat := by
    rw [BitVec.toNat_add, BitVec.toNat_sub, BitVec.toNat_allOnes]; simp; omega
  unfold limit
  simp only [BitVec.lt_def, e1, e2, e3]
  split <;> omega

end Verif.Log
