import Verif.U8g.TextDraw
import Verif.U8g.Spec

/-!
# XBM bitmaps and the reference position of texts

Helper lemmas: the points that the loops of the XBM procedures draw, and the figure of a
text in terms of the specification.
-/

namespace Verif.U8g

theorem shift_bit (b : Byte) {i : Nat} (h : i < 8) : (b >>> i) &&& 1 ≠ 0 ↔ b.getLsbD i = true := by
  have k : ∀ (b : Byte) (i : Fin 8), (b >>> i.1) &&& 1 ≠ 0 ↔ b.getLsbD i.1 = true := by
    decide +kernel
  exact k b ⟨i, h⟩

theorem draws_tail (x y d : Byte) : ∀ (n : Nat), n ≤ 8 → ∀ u : U8g, Ready u →
    Draws u ((List.range n).foldl
      (fun u i => if (d >>> i) &&& 1 ≠ 0 then drawPixel u (x + BitVec.ofNat 8 i) y else u) u)
      (fun x' y' => ∃ i, i < n ∧ d.getLsbD i = true ∧ x' = x + BitVec.ofNat 8 i ∧ y' = y) := by
  intro n
  induction n with
  | zero =>
    intro _ u _
    exact Draws.refl u (by rintro x' y' _ ⟨i, hi, _⟩; omega)
  | succ n ih =>
    intro hn u hu
    have d1 := ih (by omega) u hu
    rw [List.range_succ, List.foldl_append, List.foldl_cons, List.foldl_nil]
    by_cases hb : (d >>> n) &&& 1 ≠ 0
    · rw [if_pos hb]
      refine (d1.trans (draws_pixel (d1.ready hu) _ _)).congr fun x' y' _ => ?_
      constructor
      · rintro (⟨i, hi, h⟩ | ⟨h1, h2⟩)
        · exact ⟨i, by omega, h⟩
        · exact ⟨n, by omega, (shift_bit d (by omega)).1 hb, h1, h2⟩
      · rintro ⟨i, hi, h1, h2, h3⟩
        by_cases hin : i = n
        · subst hin; exact Or.inr ⟨h2, h3⟩
        · exact Or.inl ⟨i, by omega, h1, h2, h3⟩
    · rw [if_neg hb]
      refine d1.congr fun x' y' _ => ?_
      constructor
      · rintro ⟨i, hi, h⟩; exact ⟨i, by omega, h⟩
      · rintro ⟨i, hi, h1, h2⟩
        by_cases hin : i = n
        · subst hin; exact absurd ((shift_bit d (by omega)).2 h1) hb
        · exact ⟨i, by omega, h1, h2⟩

theorem draws_hxbm {y : Byte} (u : U8g) (x w : Byte) (bm : Nat → Byte) (hu : Ready u) :
    Draws u (hxbmRaw u x y w bm)
      (fun x' y' => ∃ i, i < w.toNat ∧ (bm (i / 8)).getLsbD (i % 8) = true ∧
        x' = x + BitVec.ofNat 8 i ∧ y' = y) := by
  induction u, x, w, bm using hxbmRaw.induct y with
  | case1 u x w bm h ih =>
    rw [hxbmRaw, dif_pos h]
    have d1 := draws_8pixel hu (dir := 2) (Or.inr (Or.inr (Or.inl rfl))) (x + 7) y (bm 0)
    refine (d1.trans (ih (d1.ready hu))).congr fun x' y' _ => ?_
    have s1 : stepX 2 = -1 := rfl
    have s2 : stepY 2 = 0#8 := rfl
    have h8 : (8 : Byte).toNat = 8 := rfl
    have hw : 8 ≤ w.toNat := h
    have hw2 : (w - 8).toNat = w.toNat - 8 := by
      rw [BitVec.toNat_sub_of_le h, h8]
    have e7 : ∀ i, i < 8 → x + 7 + BitVec.ofNat 8 i * -1 = x + BitVec.ofNat 8 (7 - i) := by
      intro i hi
      have : (BitVec.ofNat 8 (7 - i) : Byte) = 7 - BitVec.ofNat 8 i := by
        apply BitVec.eq_of_toNat_eq
        rw [BitVec.toNat_sub, BitVec.toNat_ofNat, BitVec.toNat_ofNat]
        have : (7 : Byte).toNat = 7 := rfl
        omega
      rw [this]
      generalize BitVec.ofNat 8 i = I
      grind
    have e8 : ∀ i : Nat, x + 8 + BitVec.ofNat 8 i = x + BitVec.ofNat 8 (i + 8) := by
      intro i
      rw [BitVec.ofNat_add, BitVec.add_assoc, BitVec.add_comm (8 : Byte)]
      rfl
    constructor
    · rintro (⟨i, hi, _, hb, e1, e2⟩ | ⟨i, hi, hb, e1, e2⟩)
      · refine ⟨7 - i, by omega, ?_, ?_, ?_⟩
        · have h1 : (7 - i) / 8 = 0 := by omega
          have h2 : (7 - i) % 8 = 7 - i := by omega
          rw [h1, h2]; exact hb
        · rw [e1, s1, e7 i hi]
        · rw [e2, s2, BitVec.mul_zero, BitVec.add_zero]
      · refine ⟨i + 8, by omega, ?_, by rw [e1, e8], e2⟩
        have h1 : (i + 8) / 8 = i / 8 + 1 := by omega
        have h2 : (i + 8) % 8 = i % 8 := by omega
        rw [h1, h2]; exact hb
    · rintro ⟨i, hi, hb, e1, e2⟩
      by_cases hi8 : i < 8
      · left
        refine ⟨7 - i, by omega, by omega, ?_, ?_, ?_⟩
        · have h1 : i / 8 = 0 := by omega
          have h2 : 7 - (7 - i) = i % 8 := by omega
          rw [h2, ← h1]; exact hb
        · have : 7 - (7 - i) = i := by omega
          rw [e1, s1, e7 _ (by omega), this]
        · rw [e2, s2, BitVec.mul_zero, BitVec.add_zero]
      · right
        refine ⟨i - 8, by omega, ?_, ?_, e2⟩
        · have h1 : (i - 8) / 8 + 1 = i / 8 := by omega
          have h2 : (i - 8) % 8 = i % 8 := by omega
          show (bm ((i - 8) / 8 + 1)).getLsbD _ = true
          rw [h1, h2]; exact hb
        · rw [e8]
          have : i - 8 + 8 = i := by omega
          rw [this]; exact e1
  | case2 u x w bm h =>
    rw [hxbmRaw, dif_neg h]
    have hw : w.toNat < 8 := by
      have h8 : (8 : Byte).toNat = 8 := rfl
      rw [BitVec.le_def] at h; omega
    refine (draws_tail x y (bm 0) w.toNat (by omega) u hu).congr fun x' y' _ => ?_
    have e : ∀ i, i < w.toNat → i / 8 = 0 ∧ i % 8 = i := by omega
    constructor
    · rintro ⟨i, hi, hb, e1, e2⟩
      exact ⟨i, hi, by rw [(e i hi).1, (e i hi).2]; exact hb, e1, e2⟩
    · rintro ⟨i, hi, hb, e1, e2⟩
      rw [(e i hi).1, (e i hi).2] at hb
      exact ⟨i, hi, hb, e1, e2⟩

theorem draws_xbmLoop {x w b : Byte} :
    ∀ (n : Nat) (u : U8g) (y : Byte) (bm : Nat → Byte), Ready u →
      Draws u (xbmLoop u x y w b bm n)
        (fun x' y' => ∃ i r, i < w.toNat ∧ r < n ∧ x' = x + BitVec.ofNat 8 i ∧
          y' = y + BitVec.ofNat 8 r ∧ (bm (r * b.toNat + i / 8)).getLsbD (i % 8) = true) := by
  intro n
  induction n with
  | zero =>
    intro u y bm _
    exact Draws.refl u (by rintro x' y' _ ⟨i, r, _, hj, _⟩; omega)
  | succ n ih =>
    intro u y bm hu
    have d1 := draws_hxbm (y := y) u x w bm hu
    refine (d1.trans (ih _ (y + 1) (fun i => bm (i + b.toNat)) (d1.ready hu))).congr
      fun x' y' _ => ?_
    have e : ∀ j : Nat, y + 1 + BitVec.ofNat 8 j = y + BitVec.ofNat 8 (j + 1) := by
      intro j
      rw [BitVec.ofNat_add, BitVec.add_assoc, BitVec.add_comm (1 : Byte)]
      rfl
    have e2 : ∀ r j : Nat, r * b.toNat + j + b.toNat = (r + 1) * b.toNat + j := by
      intro r j
      rw [Nat.add_mul, Nat.one_mul]; omega
    constructor
    · rintro (⟨i, hi, hb, e1, e3⟩ | ⟨i, r, hi, hr, e1, e3, hb⟩)
      · exact ⟨i, 0, hi, by omega, e1, by simpa using e3, by simpa using hb⟩
      · exact ⟨i, r + 1, hi, by omega, e1, by rw [e3, e], by rw [← e2]; exact hb⟩
    · rintro ⟨i, r, hi, hr, e1, e3, hb⟩
      cases r with
      | zero => exact Or.inl ⟨i, hi, by simpa using hb, e1, by simpa using e3⟩
      | succ r => exact Or.inr ⟨i, r, hi, by omega, e1, by rw [e3, e], by rw [e2]; exact hb⟩

theorem draws_xbm {u} (hu : Ready u) (x y w h : Byte) (bm : Nat → Byte) (hw : w ≤ 248) :
    Draws u (drawXbm u x y w h bm) (Covers (.xbm x y w h bm)) := by
  have hw' : w.toNat ≤ 248 := hw
  have hb : ((w + 7) >>> 3).toNat = (w.toNat + 7) / 8 := by
    rw [BitVec.toNat_ushiftRight, Nat.shiftRight_eq_div_pow, BitVec.toNat_add]
    have : (7 : Byte).toNat = 7 := rfl
    rw [this]
    congr 1
    omega
  unfold drawXbm
  by_cases hi : isBBXIntersection u x y w h = true
  · rw [if_pos hi]
    refine (draws_xbmLoop h.toNat u y bm hu).congr fun x' y' _ => ?_
    rw [hb]
    rfl
  · rw [if_neg hi]
    refine Draws.refl u ?_
    rintro x' y' ho ⟨i, r, hi', hr, e1, e2, _⟩
    rcases clip_any hu (by simpa using hi) ho with ⟨_, hn⟩ | ⟨_, hn⟩
    · apply hn
      rw [e1, BitVec.add_comm, BitVec.add_sub_cancel, BitVec.lt_def, BitVec.toNat_ofNat]
      omega
    · apply hn
      have := h.isLt
      rw [e2, BitVec.add_comm, BitVec.add_sub_cancel, BitVec.lt_def, BitVec.toNat_ofNat]
      omega

/-- The callbacks compute the reference position. -/
theorem vref_reference (mem : Nat → Byte) (mode : HeightMode) (pos : FontPos)
    (hc : pos = .center → -128 ≤ (heights mem mode).1 - (heights mem mode).2 ∧
      (heights mem mode).1 - (heights mem mode).2 ≤ 127) :
    BitVec.ofInt 8 (reference mem mode pos) = calcVref (refHeight mem mode) pos := by
  have hh : heights mem mode = ((refHeight mem mode).1.toInt, (refHeight mem mode).2.toInt) := by
    cases mode <;> rfl
  cases pos with
  | baseline => rfl
  | bottom =>
    show BitVec.ofInt 8 (heights mem mode).2 = (refHeight mem mode).2
    rw [hh, BitVec.ofInt_toInt]
  | top =>
    show BitVec.ofInt 8 ((heights mem mode).1 + 1) = (refHeight mem mode).1 + 1
    rw [hh, BitVec.ofInt_add, BitVec.ofInt_toInt]
    rfl
  | center =>
    obtain ⟨h1, h2⟩ := hc rfl
    rw [hh] at h1 h2
    show BitVec.ofInt 8 (((heights mem mode).1 - (heights mem mode).2).tdiv 2
      + (heights mem mode).2) = ((refHeight mem mode).1 - (refHeight mem mode).2).sdiv 2
        + (refHeight mem mode).2
    rw [hh]
    generalize (refHeight mem mode).1 = A at *
    generalize (refHeight mem mode).2 = D at *
    rw [BitVec.ofInt_add, BitVec.ofInt_toInt]
    congr 1
    have hs : (A - D).toInt = A.toInt - D.toInt := by
      rw [BitVec.toInt_sub]
      exact Int.bmod_eq_of_le (by simpa using h1) (by simp only at h2; omega)
    rw [← hs]
    generalize A - D = X
    revert X
    decide +kernel

theorem ofInt_inj {a b : Int} (h : BitVec.ofInt 8 a = BitVec.ofInt 8 b) (a1 : -128 ≤ a)
    (a2 : a ≤ 127) (b1 : -128 ≤ b) (b2 : b ≤ 127) : a = b := by
  have h1 := congrArg BitVec.toInt h
  rw [BitVec.toInt_ofInt, BitVec.toInt_ofInt] at h1
  rw [Int.bmod_eq_of_le (by simpa using a1) (by simp; omega),
    Int.bmod_eq_of_le (by simpa using b1) (by simp; omega)] at h1
  exact h1

theorem Letter.Ok.bounds {small : Bool} {g : Letter} (h : g.Ok small) :
    g.width ≤ 248 ∧ g.height ≤ 255 ∧ -128 ≤ g.right ∧ g.right ≤ 127 ∧ -128 ≤ g.up ∧ g.up ≤ 127 ∧
      -128 ≤ g.advance ∧ g.advance ≤ 127 := by
  cases small with
  | true => have := h.packed rfl; omega
  | false => have := h.large rfl; omega

/-- Memory holds at most one letter for a code. -/
theorem same_letter {F F' : Font} {mem : Nat → Byte} (ho : F.Ok) (hs : F.StoredAt mem)
    (ho' : F'.Ok) (hs' : F'.StoredAt mem) {c : Byte} {g g' : Letter}
    (h1 : F.letter c = some g) (h2 : F'.letter c = some g') :
    g.width = g'.width ∧ g.height = g'.height ∧ g.right = g'.right ∧ g.up = g'.up ∧
      g.advance = g'.advance ∧
      ∀ i j, i < g'.width → j < g'.height → g'.Lit i j → g.Lit i j := by
  obtain ⟨k, p, m, e, mw, mh, mx, my, md, mm⟩ := found ho hs h1
  obtain ⟨k', p', m', e', mw', mh', mx', my', md', mm'⟩ := found ho' hs' h2
  rw [e] at e'
  obtain ⟨rfl, rfl⟩ := Prod.mk.inj (Option.some.inj e')
  obtain ⟨b1, b2, b3, b4, b5, b6, b7, b8⟩ := k.bounds
  obtain ⟨c1, c2, c3, c4, c5, c6, c7, c8⟩ := k'.bounds
  have q1 : g.width = g'.width := by
    have := congrArg BitVec.toNat (mw.symm.trans mw')
    rw [BitVec.toNat_ofNat, BitVec.toNat_ofNat] at this
    omega
  have q2 : g.height = g'.height := by
    have := congrArg BitVec.toNat (mh.symm.trans mh')
    rw [BitVec.toNat_ofNat, BitVec.toNat_ofNat] at this
    omega
  refine ⟨q1, q2, ofInt_inj (mx.symm.trans mx') b3 b4 c3 c4,
    ofInt_inj (my.symm.trans my') b5 b6 c5 c6, ofInt_inj (md.symm.trans md') b7 b8 c7 c8, ?_⟩
  intro i j hi hj hl
  have hr : g.rowBytes = g'.rowBytes := by unfold Letter.rowBytes; rw [q1]
  have hlt : j * g'.rowBytes + i / 8 < g'.data.length := by
    rw [k'.length]
    have h3 : (j + 1) * g'.rowBytes ≤ g'.height * g'.rowBytes := Nat.mul_le_mul_right _ hj
    have h4 : i / 8 < g'.rowBytes := by unfold Letter.rowBytes; omega
    rw [Nat.add_mul, Nat.one_mul] at h3
    omega
  have hlt2 : j * g'.rowBytes + i / 8 < g.data.length := by
    rw [k.length, q2, hr, ← k'.length]; exact hlt
  unfold Letter.Lit at hl ⊢
  rw [hr, ← mm _ hlt2, mm' _ hlt]
  exact hl

/-- Every font that the memory holds has the same letters. -/
theorem same_text {F F' : Font} {mem : Nat → Byte} (ho : F.Ok) (hs : F.StoredAt mem)
    (ho' : F'.Ok) (hs' : F'.StoredAt mem) : ∀ (s : List Byte) (pen a b : Int),
    TextAt F' s pen a b → TextAt F s pen a b := by
  intro s
  induction s with
  | nil => intro _ _ _ h; exact h
  | cons c s ih =>
    intro pen a b h
    have e1 := getGlyph_spec ho hs c
    have e2 := getGlyph_spec ho' hs' c
    unfold TextAt at h ⊢
    cases h1 : F.letter c with
    | none =>
      cases h2 : F'.letter c with
      | none => simp only [h2] at h; exact ih _ _ _ h
      | some g' => rw [h1] at e1; rw [h2] at e2; rw [e1] at e2; cases e2
    | some g =>
      cases h2 : F'.letter c with
      | none => rw [h1] at e1; rw [h2] at e2; rw [e1] at e2; cases e2
      | some g' =>
        simp only [h2] at h
        obtain ⟨q1, q2, q3, q4, q5, q6⟩ := same_letter ho hs ho' hs' h1 h2
        rcases h with ⟨i, j, hi, hj, hl, e3, e4⟩ | h
        · left
          exact ⟨i, j, by omega, by omega, q6 i j hi hj hl, by rw [q3]; exact e3,
            by rw [q2, q4]; exact e4⟩
        · right
          rw [q5]
          exact ih _ _ _ h

theorem draws_text {u} (hu : Ready u) (mem : Nat → Byte) (mode : HeightMode) (pos : FontPos)
    (dir x y : Byte) (s : List Byte) (ha : Allowed (.text mem mode pos dir x y s)) :
    Draws u (exec u (.text mem mode pos dir x y s)) (Covers (.text mem mode pos dir x y s)) := by
  obtain ⟨⟨F, ho, hs⟩, hc⟩ := ha
  have hv := vref_reference mem mode pos hc
  have ht : ∀ (d : Nat) (a b : Int),
      turned d x y a (b - (calcVref (refHeight mem mode) pos).toInt)
        = turned d x y a (b - reference mem mode pos) := by
    intro d a b
    have e : BitVec.ofInt 8 (b - (calcVref (refHeight mem mode) pos).toInt)
        = BitVec.ofInt 8 (b - reference mem mode pos) := by
      rw [Int.sub_eq_add_neg, Int.sub_eq_add_neg, BitVec.ofInt_add, BitVec.ofInt_add,
        BitVec.ofInt_neg, BitVec.ofInt_neg, hv, BitVec.ofInt_toInt]
    unfold turned
    rw [e]
  have h4 : (4 : Byte).toNat = 4 := rfl
  by_cases hd : dir < 4
  · have hd' : dir.toNat < 4 := hd
    have e : dir = BitVec.ofNat 8 dir.toNat := by simp
    have key : ∀ F : Font, F.Ok → F.StoredAt mem →
        Draws u (exec u (.text mem mode pos dir x y s))
          (fun x' y' => ∃ a b, TextAt F s 0 a b ∧
            (x', y') = turned dir.toNat x y a (b - reference mem mode pos)) := by
      intro F ho hs
      have d := (draws_str hu dir.toNat ho hs (calcVref (refHeight mem mode) pos) x y s hd').1
      rw [← e] at d
      refine d.congr fun x' y' _ => ?_
      simp only [ht]
    refine (key F ho hs).congr fun x' y' _ => ?_
    constructor
    · rintro ⟨a, b, h1, h2⟩
      exact ⟨hd, F, ho, hs, a, b, h1, h2⟩
    · rintro ⟨_, F', ho', hs', a, b, h1, h2⟩
      exact ⟨a, b, same_text ho hs ho' hs' s 0 a b h1, h2⟩
  · have he : exec u (.text mem mode pos dir x y s) = u := by
      show (drawStr dir mem _ u x y s).1 = u
      unfold drawStr
      have : ∀ k : Byte, k < 4 → ¬ dir = k := by
        rintro k hk rfl; exact hd hk
      rw [if_neg (this 0 (by decide)), if_neg (this 1 (by decide)), if_neg (this 2 (by decide)),
        if_neg (this 3 (by decide))]
    rw [he]
    refine Draws.refl u ?_
    rintro x' y' _ ⟨h, _⟩
    exact hd h

end Verif.U8g
