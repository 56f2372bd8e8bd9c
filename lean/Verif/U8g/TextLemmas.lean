import Verif.U8g.TextSpec
import Verif.U8g.Figures

/-!
# Finding and drawing letters

Helper lemmas: the search finds the letter of the font, and the loops draw its points.
-/

namespace Verif.U8g

theorem nibbles {n m : Nat} (hn : n < 16) (hm : m < 16) :
    (BitVec.ofNat 8 (16 * n + m) &&& 15 : Byte) = BitVec.ofNat 8 m ∧
    (BitVec.ofNat 8 (16 * n + m) >>> 4 : Byte) = BitVec.ofNat 8 n ∧
    ((BitVec.ofNat 8 (16 * n + m) : Byte) = 255 → n = 15 ∧ m = 15) := by
  have h : ∀ n m : Fin 16,
      (BitVec.ofNat 8 (16 * n.1 + m.1) &&& 15 : Byte) = BitVec.ofNat 8 m.1 ∧
      (BitVec.ofNat 8 (16 * n.1 + m.1) >>> 4 : Byte) = BitVec.ofNat 8 n.1 ∧
      ((BitVec.ofNat 8 (16 * n.1 + m.1) : Byte) = 255 → n.1 = 15 ∧ m.1 = 15) := by
    decide +kernel
  exact h ⟨n, hn⟩ ⟨m, hm⟩

theorem ofInt_text (n : Nat) : BitVec.ofInt 8 (n : Int) = BitVec.ofNat 8 n := by
  apply BitVec.eq_of_toNat_eq
  simp

/-- The memory holds the bytes of an entry at its place. -/
theorem entry_at {F : Font} {mem : Nat → Byte} (hs : F.StoredAt mem) {pre post e}
    (hl : F.letters = pre ++ e :: post) (j : Nat) (hj : j < (entryBytes F.small e).length) :
    mem (F.place pre.length + j) = (entryBytes F.small e).getD j 0 := by
  have ht : F.letters.take pre.length = pre := by rw [hl]; simp
  have hb : entriesBytes F.small F.letters
      = entriesBytes F.small pre ++ (entryBytes F.small e ++ entriesBytes F.small post) := by
    rw [hl]; simp [entriesBytes]
  unfold Font.place
  rw [ht, Nat.add_assoc]
  rw [hs.body _ (by rw [hb]; simp; omega), hb]
  rw [List.getD_eq_getElem?_getD, List.getD_eq_getElem?_getD,
    List.getElem?_append_right (by omega), Nat.add_sub_cancel_left,
    List.getElem?_append_left hj]

theorem place_next {F : Font} {pre post e} (hl : F.letters = pre ++ e :: post) :
    F.place (pre ++ [e]).length = F.place pre.length + (entryBytes F.small e).length := by
  have ht : F.letters.take pre.length = pre := by rw [hl]; simp
  have ht2 : F.letters.take (pre ++ [e]).length = pre ++ [e] := by
    have : F.letters = (pre ++ [e]) ++ post := by rw [hl]; simp
    rw [this]; exact List.take_left
  unfold Font.place
  rw [ht, ht2]
  simp [entriesBytes]
  omega

/-- What the memory holds at the place of a letter. -/
theorem letter_at {F : Font} {mem : Nat → Byte} (hs : F.StoredAt mem) {pre post g}
    (hl : F.letters = pre ++ some g :: post) (hg : g.Ok F.small) :
    mem (F.place pre.length) ≠ 255 ∧
    F.place pre.length
        + (mem (F.place pre.length + 2) &&& (if mem 0 = 1 then 15 else 255)).toNat + glyphSize mem
      = F.place pre.length + (entryBytes F.small (some g)).length ∧
    (copyGlyph mem (F.place pre.length)).width = BitVec.ofNat 8 g.width ∧
    (copyGlyph mem (F.place pre.length)).height = BitVec.ofNat 8 g.height ∧
    (copyGlyph mem (F.place pre.length)).x = BitVec.ofInt 8 g.right ∧
    (copyGlyph mem (F.place pre.length)).y = BitVec.ofInt 8 g.up ∧
    (copyGlyph mem (F.place pre.length)).dx = BitVec.ofInt 8 g.advance ∧
    ∀ i, i < g.data.length → mem (F.place pre.length + glyphSize mem + i) = g.data.getD i 0 := by
  have at_ := entry_at hs hl
  generalize F.place pre.length = p at *
  have hf := hs.format
  cases hsm : F.small with
  | true =>
    obtain ⟨w1, h1, l1, r1, r2, u1, u2, n1, a1, a2⟩ := hg.packed hsm
    rw [hsm] at hf
    rw [hsm] at at_
    simp only [if_true] at hf
    have len : (entryBytes true (some g)).length = 3 + g.data.length := by
      simp [entryBytes]; omega
    have size : glyphSize mem = 3 := by
      unfold glyphSize
      rw [hf]; rfl
    obtain ⟨r, hr⟩ := Int.eq_ofNat_of_zero_le r1
    obtain ⟨v, hv⟩ := Int.eq_ofNat_of_zero_le (show 0 ≤ g.up + 2 by omega)
    obtain ⟨a, ha⟩ := Int.eq_ofNat_of_zero_le a1
    have b0 : mem p = BitVec.ofNat 8 (16 * r + v) := by
      have := at_ 0 (by omega)
      rw [Nat.add_zero] at this
      rw [this]
      show BitVec.ofInt 8 (16 * g.right + (g.up + 2)) = _
      rw [hr, hv, ← ofInt_text]
      rfl
    have b1 : mem (p + 1) = BitVec.ofNat 8 (16 * g.width + g.height) := at_ 1 (by omega)
    have b2 : mem (p + 2) = BitVec.ofNat 8 (16 * a + g.data.length) := by
      rw [at_ 2 (by omega)]
      show BitVec.ofInt 8 (16 * g.advance + g.data.length) = _
      rw [ha, ← ofInt_text]
      rfl
    obtain ⟨m1, m2, m3⟩ := nibbles (n := r) (m := v) (by omega) (by omega)
    obtain ⟨k1, k2, _⟩ := nibbles (n := g.width) (m := g.height) (by omega) (by omega)
    obtain ⟨q1, q2, _⟩ := nibbles (n := a) (m := g.data.length) (by omega) (by omega)
    have c : copyGlyph mem p = { y := (mem p &&& 15) - 2, x := mem p >>> 4
                                 height := mem (p + 1) &&& 15, width := mem (p + 1) >>> 4
                                 dx := mem (p + 2) >>> 4 } := by
      unfold copyGlyph
      rw [hf]; rfl
    rw [c, b0, b1, b2, m1, m2, k1, k2, q2, hf, if_pos rfl, q1, size, len]
    refine ⟨?_, ?_, rfl, rfl, ?_, ?_, ?_, ?_⟩
    · intro h
      obtain ⟨e1, e2⟩ := m3 h
      exact n1 ⟨by omega, by omega⟩
    · rw [BitVec.toNat_ofNat]; omega
    · rw [hr]; exact (ofInt_text r).symm
    · have e : g.up = (v : Int) - 2 := by omega
      show BitVec.ofNat 8 v - 2 = _
      rw [e, ← ofInt_text, Int.sub_eq_add_neg, BitVec.ofInt_add, BitVec.sub_eq_add_neg]
      rfl
    · rw [ha]; exact (ofInt_text a).symm
    · intro i hi
      rw [Nat.add_assoc, at_ (3 + i) (by omega)]
      rw [Nat.add_comm 3]
      rfl
  | false =>
    obtain ⟨w1, h1, l1, r1, r2, u1, u2, a1, a2⟩ := hg.large hsm
    rw [hsm] at hf
    rw [hsm] at at_
    have hf : mem 0 = 0 := hf
    have len : (entryBytes false (some g)).length = 6 + g.data.length := by
      simp [entryBytes]; omega
    have size : glyphSize mem = 6 := by
      unfold glyphSize
      rw [hf]; rfl
    have b0 : mem p = BitVec.ofNat 8 g.width := at_ 0 (by omega)
    have b1 : mem (p + 1) = BitVec.ofNat 8 g.height := at_ 1 (by omega)
    have b2 : mem (p + 2) = BitVec.ofNat 8 g.data.length := at_ 2 (by omega)
    have b3 : mem (p + 3) = BitVec.ofInt 8 g.advance := at_ 3 (by omega)
    have b4 : mem (p + 4) = BitVec.ofInt 8 g.right := at_ 4 (by omega)
    have b5 : mem (p + 5) = BitVec.ofInt 8 g.up := at_ 5 (by omega)
    have c : copyGlyph mem p = { width := mem p, height := mem (p + 1), dx := mem (p + 3)
                                 x := mem (p + 4), y := mem (p + 5) } := by
      unfold copyGlyph
      rw [hf]; rfl
    have hm : (mem (p + 2) &&& (if mem 0 = 1 then 15 else 255)).toNat = g.data.length := by
      rw [hf, if_neg (by decide), b2]
      have : ∀ b : Byte, b &&& 255 = b := by decide +kernel
      rw [this, BitVec.toNat_ofNat]; omega
    rw [hm, c, b0, b1, b3, b4, b5, size, len]
    refine ⟨?_, by omega, rfl, rfl, rfl, rfl, rfl, ?_⟩
    · intro h
      have := congrArg BitVec.toNat h
      rw [BitVec.toNat_ofNat] at this
      have e : (255 : Byte).toNat = 255 := rfl
      omega
    · intro i hi
      rw [Nat.add_assoc, at_ (6 + i) (by omega)]
      rw [Nat.add_comm 6]
      rfl

/-- One pass of the search that does not find the letter. -/
theorem glyphLoop_next {F : Font} {mem : Nat → Byte} (ho : F.Ok) (hs : F.StoredAt mem) (req : Byte)
    {pre post : List (Option Letter)} {e e' : Option Letter}
    (hl : F.letters = pre ++ e :: e' :: post)
    (hn : e = none ∨ req.toNat ≠ F.first + pre.length) :
    glyphLoop mem (if mem 0 = 1 then 15 else 255) (glyphSize mem) req (mem 11)
        (F.place pre.length) (BitVec.ofNat 8 (F.first + pre.length))
      = glyphLoop mem (if mem 0 = 1 then 15 else 255) (glyphSize mem) req (mem 11)
        (F.place (pre ++ [e]).length) (BitVec.ofNat 8 (F.first + (pre ++ [e]).length)) := by
  have hc := ho.codes
  have hlast := hs.last
  have len : F.letters.length = pre.length + (post.length + 1 + 1) := by rw [hl]; simp
  have hend : BitVec.ofNat 8 (F.first + pre.length) ≠ mem 11 := by
    intro h
    have := congrArg BitVec.toNat h
    rw [BitVec.toNat_ofNat] at this
    omega
  have hnext : BitVec.ofNat 8 (F.first + pre.length) + 1
      = BitVec.ofNat 8 (F.first + (pre ++ [e]).length) := by
    rw [List.length_append, List.length_singleton, ← Nat.add_assoc,
      BitVec.ofNat_add (x := F.first + pre.length)]
    rfl
  have hplace := place_next hl
  have hp : (if mem (F.place pre.length) = 255 then F.place pre.length + 1
      else F.place pre.length
        + (mem (F.place pre.length + 2) &&& (if mem 0 = 1 then 15 else 255)).toNat
        + glyphSize mem) = F.place (pre ++ [e]).length := by
    rw [hplace]
    cases e with
    | none =>
      have h255 := entry_at hs hl 0 (by simp [entryBytes])
      rw [Nat.add_zero] at h255
      rw [if_pos (by rw [h255]; rfl)]
      rfl
    | some g =>
      have := letter_at hs hl (ho.letters g (by rw [hl]; simp))
      rw [if_neg this.1]
      exact this.2.1
  have hno : ¬ (mem (F.place pre.length) ≠ 255 ∧ BitVec.ofNat 8 (F.first + pre.length) = req) := by
    rintro ⟨h1, h2⟩
    rcases hn with rfl | hn
    · have h255 := entry_at hs hl 0 (by simp [entryBytes])
      rw [Nat.add_zero] at h255
      exact h1 (by rw [h255]; rfl)
    · have := congrArg BitVec.toNat h2
      rw [BitVec.toNat_ofNat] at this
      omega
  conv => lhs; unfold glyphLoop
  rw [if_neg hno, dif_neg hend, hp, hnext]

/-- The last pass of the search. -/
theorem glyphLoop_last {F : Font} {mem : Nat → Byte} (ho : F.Ok) (hs : F.StoredAt mem) (req : Byte)
    {pre : List (Option Letter)} {e : Option Letter} (hl : F.letters = pre ++ [e])
    (hn : e = none ∨ req.toNat ≠ F.first + pre.length) :
    glyphLoop mem (if mem 0 = 1 then 15 else 255) (glyphSize mem) req (mem 11)
        (F.place pre.length) (BitVec.ofNat 8 (F.first + pre.length)) = none := by
  have hc := ho.codes
  have hlast := hs.last
  have len : F.letters.length = pre.length + 1 := by rw [hl]; simp
  have hend : BitVec.ofNat 8 (F.first + pre.length) = mem 11 := by
    apply BitVec.eq_of_toNat_eq; rw [BitVec.toNat_ofNat]; omega
  have hno : ¬ (mem (F.place pre.length) ≠ 255 ∧ BitVec.ofNat 8 (F.first + pre.length) = req) := by
    rintro ⟨h1, h2⟩
    rcases hn with rfl | hn
    · have h255 := entry_at hs hl 0 (by simp [entryBytes])
      rw [Nat.add_zero] at h255
      exact h1 (by rw [h255]; rfl)
    · have := congrArg BitVec.toNat h2
      rw [BitVec.toNat_ofNat] at this
      omega
  unfold glyphLoop
  rw [if_neg hno, dif_pos hend]

/-- The search behind the letter's entry ends without result. -/
theorem glyphLoop_past {F : Font} {mem : Nat → Byte} (ho : F.Ok) (hs : F.StoredAt mem) (req : Byte) :
    ∀ (post : List (Option Letter)) (e : Option Letter) (pre : List (Option Letter)),
      F.letters = pre ++ e :: post → req.toNat < F.first + pre.length →
      glyphLoop mem (if mem 0 = 1 then 15 else 255) (glyphSize mem) req (mem 11)
          (F.place pre.length) (BitVec.ofNat 8 (F.first + pre.length)) = none := by
  intro post
  induction post with
  | nil => intro e pre hl h1; exact glyphLoop_last ho hs req hl (Or.inr (by omega))
  | cons e' post ih =>
    intro e pre hl h1
    rw [glyphLoop_next ho hs req hl (Or.inr (by omega))]
    exact ih e' (pre ++ [e]) (by rw [hl]; simp) (by simp; omega)

/-- The search from entry `pre.length` on. -/
theorem glyphLoop_spec {F : Font} {mem : Nat → Byte} (ho : F.Ok) (hs : F.StoredAt mem) (req : Byte) :
    ∀ (post : List (Option Letter)) (e : Option Letter) (pre : List (Option Letter)),
      F.letters = pre ++ e :: post → F.first + pre.length ≤ req.toNat →
      req.toNat < F.first + F.letters.length →
      glyphLoop mem (if mem 0 = 1 then 15 else 255) (glyphSize mem) req (mem 11)
          (F.place pre.length) (BitVec.ofNat 8 (F.first + pre.length))
        = (F.letter req).map fun _ => F.place (req.toNat - F.first) := by
  intro post
  have hc := ho.codes
  induction post with
  | nil =>
    intro e pre hl h1 h2
    have len : F.letters.length = pre.length + 1 := by rw [hl]; simp
    have hreq : BitVec.ofNat 8 (F.first + pre.length) = req := by
      apply BitVec.eq_of_toNat_eq; rw [BitVec.toNat_ofNat]; omega
    have hk : req.toNat - F.first = pre.length := by omega
    have hle : F.letter req = e := by
      unfold Font.letter
      rw [if_pos (by omega), hk, hl]
      simp
    rw [hle, hk]
    cases e with
    | none => exact glyphLoop_last ho hs req hl (Or.inl rfl)
    | some g =>
      have := letter_at hs hl (ho.letters g (by rw [hl]; simp))
      unfold glyphLoop
      rw [if_pos ⟨this.1, hreq⟩]
      rfl
  | cons e' post ih =>
    intro e pre hl h1 h2
    have hl' : F.letters = (pre ++ [e]) ++ e' :: post := by rw [hl]; simp
    by_cases hreq : req.toNat = F.first + pre.length
    · have hr : BitVec.ofNat 8 (F.first + pre.length) = req := by
        apply BitVec.eq_of_toNat_eq; rw [BitVec.toNat_ofNat]; omega
      have hk : req.toNat - F.first = pre.length := by omega
      have hle : F.letter req = e := by
        unfold Font.letter
        rw [if_pos (by omega), hk, hl]
        simp
      rw [hle, hk]
      cases e with
      | none =>
        rw [glyphLoop_next ho hs req hl (Or.inl rfl)]
        exact glyphLoop_past ho hs req post e' _ hl' (by simp; omega)
      | some g =>
        have := letter_at hs hl (ho.letters g (by rw [hl]; simp))
        unfold glyphLoop
        rw [if_pos ⟨this.1, hr⟩]
        rfl
    · rw [glyphLoop_next ho hs req hl (Or.inr hreq)]
      exact ih e' (pre ++ [e]) hl' (by simp; omega) h2

theorem split_at {α} (l : List α) (k : Nat) (h : k < l.length) :
    ∃ pre e post, l = pre ++ e :: post ∧ pre.length = k :=
  ⟨l.take k, l[k], l.drop (k + 1), by simp, by simp; omega⟩

theorem fontWord_toNat (mem : Nat → Byte) (o : Nat) :
    (fontWord mem o).toNat = (mem o).toNat * 256 + (mem (o + 1)).toNat := by
  unfold fontWord
  have h1 := (mem o).isLt
  have h2 := (mem (o + 1)).isLt
  rw [BitVec.toNat_add, BitVec.toNat_shiftLeft, BitVec.toNat_setWidth, BitVec.toNat_setWidth,
    Nat.shiftLeft_eq]
  omega

/-- The search from the entry of any code `F.first + k` that is not behind the one asked for,
or of the first code. -/
theorem search_from {F : Font} {mem : Nat → Byte} (ho : F.Ok) (hs : F.StoredAt mem) (req : Byte)
    {k : Nat} (hk : k < F.letters.length) (h : k = 0 ∨ F.first + k ≤ req.toNat)
    (h2 : req.toNat < F.first + F.letters.length) :
    glyphLoop mem (if mem 0 = 1 then 15 else 255) (glyphSize mem) req (mem 11)
        (F.place k) (BitVec.ofNat 8 (F.first + k))
      = (F.letter req).map fun _ => F.place (req.toNat - F.first) := by
  obtain ⟨pre, e, post, hl, hp⟩ := split_at F.letters k hk
  subst hp
  by_cases h1 : F.first + pre.length ≤ req.toNat
  · exact glyphLoop_spec ho hs req post e pre hl h1 h2
  · rw [glyphLoop_past ho hs req post e pre hl (by omega)]
    have : F.letter req = none := by
      unfold Font.letter
      rw [if_neg]
      rcases h with h | h <;> omega
    rw [this]
    rfl

/-- The library finds the letter of the font, and only a letter of the font. -/
theorem getGlyph_spec {F : Font} {mem : Nat → Byte} (ho : F.Ok) (hs : F.StoredAt mem) (c : Byte) :
    getGlyph mem c = (F.letter c).map fun _ =>
      (F.place (c.toNat - F.first), copyGlyph mem (F.place (c.toNat - F.first))) := by
  have hlast := hs.last
  have hc := ho.codes
  have hpos := ho.some
  unfold getGlyph
  by_cases hend : mem 11 < c
  · rw [BitVec.lt_def] at hend
    have : F.letter c = none := by
      unfold Font.letter
      by_cases h : F.first ≤ c.toNat
      · rw [if_pos h, List.getD_eq_getElem?_getD, List.getElem?_eq_none (by omega)]
        rfl
      · rw [if_neg h]
    rw [this]
    simp only [if_pos (BitVec.lt_def.2 hend)]
    rfl
  · have h2 : c.toNat < F.first + F.letters.length := by
      rw [BitVec.lt_def] at hend; omega
    have key : ∀ ps : Nat × Byte, (∃ k, k < F.letters.length ∧ (k = 0 ∨ F.first + k ≤ c.toNat) ∧
          ps = (F.place k, BitVec.ofNat 8 (F.first + k))) →
        (if mem 11 < c then none
          else if ps.2 ≤ mem 11 then
            match glyphLoop mem (if mem 0 = 1 then 15 else 255) (glyphSize mem) c (mem 11)
              ps.1 ps.2 with
            | none => none
            | some p => some (p, copyGlyph mem p)
          else none) = (F.letter c).map fun _ =>
            (F.place (c.toNat - F.first), copyGlyph mem (F.place (c.toNat - F.first))) := by
      rintro ps ⟨k, hk, h, rfl⟩
      rw [if_neg hend, if_pos]
      · rw [search_from ho hs c hk h h2]
        cases F.letter c <;> rfl
      · rw [BitVec.le_def, BitVec.toNat_ofNat]; omega
    apply key
    by_cases h97 : 97 ≤ c ∧ 0 < fontWord mem 8
    · rw [if_pos h97]
      obtain ⟨h1, h3⟩ := h97
      rw [BitVec.lt_def, fontWord_toNat] at h3
      have n97 : (97 : Byte).toNat = 97 := rfl
      rw [BitVec.le_def, n97] at h1
      rcases hs.lower with h | ⟨k, k1, k2, k3⟩
      · exact absurd h (Nat.ne_of_gt h3)
      · refine ⟨k, k2, Or.inr (by omega), ?_⟩
        rw [fontWord_toNat, k3, k1]
        rfl
    · rw [if_neg h97]
      by_cases h65 : 65 ≤ c ∧ 0 < fontWord mem 6
      · rw [if_pos h65]
        obtain ⟨h1, h3⟩ := h65
        rw [BitVec.lt_def, fontWord_toNat] at h3
        have n65 : (65 : Byte).toNat = 65 := rfl
        rw [BitVec.le_def, n65] at h1
        rcases hs.capital with h | ⟨k, k1, k2, k3⟩
        · exact absurd h (Nat.ne_of_gt h3)
        · refine ⟨k, k2, Or.inr (by omega), ?_⟩
          rw [fontWord_toNat, k3, k1]
          rfl
      · rw [if_neg h65]
        refine ⟨0, hpos, Or.inl rfl, ?_⟩
        have : BitVec.ofNat 8 (F.first + 0) = mem 10 := by
          apply BitVec.eq_of_toNat_eq
          rw [BitVec.toNat_ofNat, hs.first]; omega
        rw [this]
        rfl

/-- What is known about a letter that was found. -/
theorem found {F : Font} {mem : Nat → Byte} (ho : F.Ok) (hs : F.StoredAt mem) {c : Byte} {g : Letter}
    (hg : F.letter c = some g) :
    g.Ok F.small ∧ ∃ p m, getGlyph mem c = some (p, m) ∧
      m.width = BitVec.ofNat 8 g.width ∧ m.height = BitVec.ofNat 8 g.height ∧
      m.x = BitVec.ofInt 8 g.right ∧ m.y = BitVec.ofInt 8 g.up ∧ m.dx = BitVec.ofInt 8 g.advance ∧
      ∀ i, i < g.data.length → mem (p + glyphSize mem + i) = g.data.getD i 0 := by
  have hk : F.first ≤ c.toNat ∧ c.toNat - F.first < F.letters.length := by
    unfold Font.letter at hg
    by_cases h : F.first ≤ c.toNat
    · refine ⟨h, ?_⟩
      rw [if_pos h] at hg
      apply Classical.byContradiction
      intro hn
      rw [List.getD_eq_getElem?_getD, List.getElem?_eq_none (by omega)] at hg
      cases hg
    · rw [if_neg h] at hg; cases hg
  obtain ⟨pre, e, post, hl, hp⟩ := split_at F.letters _ hk.2
  have he : e = some g := by
    have h1 : F.letter c = e := by
      unfold Font.letter
      rw [if_pos hk.1, ← hp, hl]
      simp
    rw [← h1, hg]
  subst he
  have hok := ho.letters g (by rw [hl]; simp)
  refine ⟨hok, ?_⟩
  obtain ⟨_, _, a1, a2, a3, a4, a5, a6⟩ := letter_at hs hl hok
  refine ⟨_, _, ?_, a1, a2, a3, a4, a5, a6⟩
  rw [getGlyph_spec ho hs, hg, hp]
  rfl

end Verif.U8g
