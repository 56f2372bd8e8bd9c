import Verif.U8g.TextLemmas

/-!
# Drawing letters and texts

Helper lemmas: the points that the loops of the text procedures draw.
-/

namespace Verif.U8g

theorem draws_glyphRow {dir : Byte} (hd : IsDir dir) (sx sy : Byte) (mem : Nat → Byte) :
    ∀ (w : Nat) (u : U8g) (x y : Byte) (p : Nat), Ready u →
      Draws u (glyphRow dir sx sy mem u x y p w)
        (fun x' y' => ∃ j, j < w ∧
          Row 8 (x + BitVec.ofNat 8 j * sx) (y + BitVec.ofNat 8 j * sy) dir (mem (p + j)) x' y') := by
  intro w
  induction w with
  | zero =>
    intro u x y p _
    exact Draws.refl u (by rintro x' y' _ ⟨j, hj, _⟩; omega)
  | succ w ih =>
    intro u x y p hu
    have d1 := draws_8pixel hu hd x y (mem p)
    refine (d1.trans (ih _ (x + sx) (y + sy) (p + 1) (d1.ready hu))).congr fun x' y' _ => ?_
    have e : ∀ (z s : Byte) (j : Nat), z + s + BitVec.ofNat 8 j * s = z + BitVec.ofNat 8 (j + 1) * s := by
      intro z s j
      have : BitVec.ofNat 8 (j + 1) = BitVec.ofNat 8 j + 1 := BitVec.ofNat_add (x := j) (y := 1)
      rw [this]; generalize BitVec.ofNat 8 j = J; grind
    have e3 : ∀ j : Nat, p + 1 + j = p + (j + 1) := by omega
    constructor
    · rintro (h | ⟨j, hj, h⟩)
      · exact ⟨0, by omega, by simpa using h⟩
      · exact ⟨j + 1, by omega, by rw [← e, ← e, ← e3]; exact h⟩
    · rintro ⟨j, hj, h⟩
      cases j with
      | zero => exact Or.inl (by simpa using h)
      | succ j => exact Or.inr ⟨j, by omega, by rw [e, e, e3]; exact h⟩

theorem draws_glyphRows {dir : Byte} (hd : IsDir dir) (sx sy rx ry : Byte) (mem : Nat → Byte)
    (w : Nat) :
    ∀ (h : Nat) (u : U8g) (x y : Byte) (p : Nat), Ready u →
      Draws u (glyphRows dir sx sy rx ry mem w u x y p h)
        (fun x' y' => ∃ r, r < h ∧ ∃ j, j < w ∧
          Row 8 (x + BitVec.ofNat 8 r * rx + BitVec.ofNat 8 j * sx)
            (y + BitVec.ofNat 8 r * ry + BitVec.ofNat 8 j * sy) dir (mem (p + (r * w + j))) x' y') := by
  intro h
  induction h with
  | zero =>
    intro u x y p _
    exact Draws.refl u (by rintro x' y' _ ⟨j, hj, _⟩; omega)
  | succ h ih =>
    intro u x y p hu
    have d1 := draws_glyphRow hd sx sy mem w u x y p hu
    refine (d1.trans (ih _ (x + rx) (y + ry) (p + w) (d1.ready hu))).congr fun x' y' _ => ?_
    have e : ∀ (z s : Byte) (j : Nat), z + s + BitVec.ofNat 8 j * s = z + BitVec.ofNat 8 (j + 1) * s := by
      intro z s j
      have : BitVec.ofNat 8 (j + 1) = BitVec.ofNat 8 j + 1 := BitVec.ofNat_add (x := j) (y := 1)
      rw [this]; generalize BitVec.ofNat 8 j = J; grind
    have e3 : ∀ r j : Nat, p + w + (r * w + j) = p + ((r + 1) * w + j) := by
      intro r j; rw [Nat.add_mul, Nat.one_mul]; omega
    constructor
    · rintro (⟨j, hj, k⟩ | ⟨r, hr, j, hj, k⟩)
      · exact ⟨0, by omega, j, hj, by simpa using k⟩
      · exact ⟨r + 1, by omega, j, hj, by rw [← e, ← e, ← e3]; exact k⟩
    · rintro ⟨r, hr, j, hj, k⟩
      cases r with
      | zero => exact Or.inl ⟨j, hj, by simpa using k⟩
      | succ r => exact Or.inr ⟨r, by omega, j, hj, by rw [e, e, e3]; exact k⟩

/-- The same, by columns and rows. -/
theorem draws_points {dir : Byte} (hd : IsDir dir) (sx sy rx ry : Byte) (mem : Nat → Byte)
    (w h : Nat) (u : U8g) (x y : Byte) (p : Nat) (hu : Ready u)
    (hx : sx = 8 * stepX dir) (hy : sy = 8 * stepY dir) :
    Draws u (glyphRows dir sx sy rx ry mem w u x y p h)
      (fun x' y' => ∃ i r, i < 8 * w ∧ r < h ∧
        (mem (p + (r * w + i / 8))).getLsbD (7 - i % 8) = true ∧
        x' = x + BitVec.ofNat 8 r * rx + BitVec.ofNat 8 i * stepX dir ∧
        y' = y + BitVec.ofNat 8 r * ry + BitVec.ofNat 8 i * stepY dir) := by
  refine (draws_glyphRows hd sx sy rx ry mem w h u x y p hu).congr fun x' y' _ => ?_
  have e : ∀ (z s : Byte) (j i : Nat),
      z + BitVec.ofNat 8 j * (8 * s) + BitVec.ofNat 8 i * s = z + BitVec.ofNat 8 (8 * j + i) * s := by
    intro z s j i
    have : BitVec.ofNat 8 (8 * j + i) = 8 * BitVec.ofNat 8 j + BitVec.ofNat 8 i := by
      rw [BitVec.ofNat_add, BitVec.ofNat_mul]; rfl
    rw [this]
    generalize BitVec.ofNat 8 j = J
    generalize BitVec.ofNat 8 i = I
    grind
  rw [hx, hy]
  constructor
  · rintro ⟨r, hr, j, hj, i, hi, _, hb, e1, e2⟩
    refine ⟨8 * j + i, r, by omega, hr, ?_, ?_, ?_⟩
    · have h1 : (8 * j + i) / 8 = j := by omega
      have h2 : (8 * j + i) % 8 = i := by omega
      rw [h1, h2]; exact hb
    · rw [e1, e]
    · rw [e2, e]
  · rintro ⟨i, r, hi, hr, hb, e1, e2⟩
    refine ⟨r, hr, i / 8, by omega, i % 8, by omega, by omega, hb, ?_, ?_⟩
    · rw [e1, e]
      have : 8 * (i / 8) + i % 8 = i := by omega
      rw [this]
    · rw [e2, e]
      have : 8 * (i / 8) + i % 8 = i := by omega
      rw [this]

theorem ofNat_lt {i n : Nat} (h : i < n) (hn : n ≤ 255) :
    (BitVec.ofNat 8 i : Byte) < BitVec.ofNat 8 n := by
  rw [BitVec.lt_def, BitVec.toNat_ofNat, BitVec.toNat_ofNat]; omega

theorem ofNat_rev_lt {i n : Nat} (h : i < n) (hn : n ≤ 255) :
    (BitVec.ofNat 8 n - 1 - BitVec.ofNat 8 i : Byte) < BitVec.ofNat 8 n := by
  have e : (BitVec.ofNat 8 n - 1 - BitVec.ofNat 8 i : Byte) = BitVec.ofNat 8 (n - 1 - i) := by
    apply BitVec.eq_of_toNat_eq
    simp only [BitVec.toNat_sub, BitVec.toNat_ofNat]
    have : (1 : Byte).toNat = 1 := rfl
    omega
  rw [e]
  exact ofNat_lt (by omega) hn

theorem ofInt_right (g : Letter) (i : Nat) :
    BitVec.ofInt 8 (g.right + i) = BitVec.ofInt 8 g.right + BitVec.ofNat 8 i := by
  rw [BitVec.ofInt_add, ofInt_text]

theorem ofInt_up (g : Letter) (j : Nat) :
    BitVec.ofInt 8 (g.up + (g.height - 1 - j : Int))
      = BitVec.ofInt 8 g.up + (BitVec.ofNat 8 g.height - 1 - BitVec.ofNat 8 j) := by
  rw [BitVec.ofInt_add, Int.sub_eq_add_neg, Int.sub_eq_add_neg, BitVec.ofInt_add, BitVec.ofInt_add,
    BitVec.ofInt_neg, BitVec.ofInt_neg, ofInt_text, ofInt_text, BitVec.sub_eq_add_neg, BitVec.sub_eq_add_neg]
  rfl

/-- The letter is drawn at its place. -/
theorem draws_found {u} (hu : Ready u) (dir : Nat) (hdir : dir < 4) (x y : Byte) {small : Bool}
    {g : Letter} (hg : g.Ok small) {mem : Nat → Byte} {p : Nat} {m : Glyph}
    (mw : m.width = BitVec.ofNat 8 g.width) (mh : m.height = BitVec.ofNat 8 g.height)
    (mx : m.x = BitVec.ofInt 8 g.right) (my : m.y = BitVec.ofInt 8 g.up)
    (md : ∀ i, i < g.data.length → mem (p + i) = g.data.getD i 0) :
    Draws u (drawFound (BitVec.ofNat 8 dir) mem u x y p m)
      (fun x' y' => ∃ i j, i < g.width ∧ j < g.height ∧ g.Lit i j ∧
        (x', y') = turned dir x y (g.right + i) (g.up + (g.height - 1 - j : Int))) := by
  have hw : g.width ≤ 248 := by
    cases small with
    | true => have := (hg.packed rfl).1; omega
    | false => exact (hg.large rfl).1
  have hh : g.height ≤ 255 := by
    cases small with
    | true => have := (hg.packed rfl).2.1; omega
    | false => exact (hg.large rfl).2.1
  have bw : ((m.width + 7) / 8).toNat = g.rowBytes := by
    rw [mw, BitVec.toNat_udiv, BitVec.toNat_add, BitVec.toNat_ofNat]
    have h7 : (7 : Byte).toNat = 7 := rfl
    have h8 : (8 : Byte).toNat = 8 := rfl
    unfold Letter.rowBytes
    rw [h7, h8]
    congr 1
    omega
  have bh : m.height.toNat = g.height := by rw [mh, BitVec.toNat_ofNat]; omega
  have hb : g.rowBytes * 8 ≤ g.width + 7 := by unfold Letter.rowBytes; omega
  have hb2 : g.width ≤ 8 * g.rowBytes := by unfold Letter.rowBytes; omega
  -- the bits in memory are those of the letter
  have lit : ∀ {i j : Nat}, i < 8 * g.rowBytes → j < g.height →
      ((mem (p + (j * g.rowBytes + i / 8))).getLsbD (7 - i % 8) = true ↔ g.Lit i j) := by
    intro i j hi hj
    have : j * g.rowBytes + i / 8 < g.data.length := by
      rw [hg.length]
      have h1 : (j + 1) * g.rowBytes ≤ g.height * g.rowBytes := Nat.mul_le_mul_right _ hj
      rw [Nat.add_mul, Nat.one_mul] at h1
      omega
    rw [md _ this]
    rfl
  have inside : ∀ {i j : Nat}, i < 8 * g.rowBytes → j < g.height → g.Lit i j → i < g.width := by
    intro i j hi hj hl
    apply Classical.byContradiction
    intro hn
    exact hg.padding i j (by omega) hi hj hl
  unfold drawFound
  rw [bw, bh, mw, mh, mx, my]
  generalize hR : BitVec.ofInt 8 g.right = R
  generalize hU : BitVec.ofInt 8 g.up = U
  generalize hH : (BitVec.ofNat 8 g.height : Byte) = H
  generalize hW : (BitVec.ofNat 8 g.width : Byte) = W
  have tr : ∀ i : Nat, BitVec.ofInt 8 (g.right + i) = R + BitVec.ofNat 8 i := by
    intro i; rw [ofInt_right, hR]
  have tu : ∀ j : Nat, BitVec.ofInt 8 (g.up + (g.height - 1 - j : Int))
      = U + (H - 1 - BitVec.ofNat 8 j) := by
    intro j; rw [ofInt_up, hU, hH]
  have l1 : ∀ {i : Nat}, i < g.width → (BitVec.ofNat 8 i : Byte) < W := by
    intro i h; rw [← hW]; exact ofNat_lt h (by omega)
  have l2 : ∀ {j : Nat}, j < g.height → (BitVec.ofNat 8 j : Byte) < H := by
    intro j h; rw [← hH]; exact ofNat_lt h (by omega)
  have l3 : ∀ {i : Nat}, i < g.width → (W - 1 - BitVec.ofNat 8 i : Byte) < W := by
    intro i h; rw [← hW]; exact ofNat_rev_lt h (by omega)
  have l4 : ∀ {j : Nat}, j < g.height → (H - 1 - BitVec.ofNat 8 j : Byte) < H := by
    intro j h; rw [← hH]; exact ofNat_rev_lt h (by omega)
  have core : ∀ (d sx sy rx ry X0 Y0 bx bW by_ bH : Byte), IsDir d → sx = 8 * stepX d →
      sy = 8 * stepY d →
      (∀ i j : Nat, (X0 + BitVec.ofNat 8 j * rx + BitVec.ofNat 8 i * stepX d,
        Y0 + BitVec.ofNat 8 j * ry + BitVec.ofNat 8 i * stepY d)
        = turned dir x y (g.right + i) (g.up + (g.height - 1 - j : Int))) →
      (∀ i j : Nat, i < g.width → j < g.height →
        X0 + BitVec.ofNat 8 j * rx + BitVec.ofNat 8 i * stepX d - bx < bW ∧
        Y0 + BitVec.ofNat 8 j * ry + BitVec.ofNat 8 i * stepY d - by_ < bH) →
      Draws u (if isBBXIntersection u bx by_ bW bH = true then
          glyphRows d sx sy rx ry mem g.rowBytes u X0 Y0 p g.height else u)
        (fun x' y' => ∃ i j, i < g.width ∧ j < g.height ∧ g.Lit i j ∧
          (x', y') = turned dir x y (g.right + i) (g.up + (g.height - 1 - j : Int))) := by
    intro d sx sy rx ry X0 Y0 bx bW by_ bH hd h1 h2 ht hc
    by_cases hi : isBBXIntersection u bx by_ bW bH = true
    · rw [if_pos hi]
      refine (draws_points hd sx sy rx ry mem g.rowBytes g.height u X0 Y0 p hu h1 h2).congr
        fun x' y' _ => ?_
      constructor
      · rintro ⟨i, j, hi, hj, hl, e1, e2⟩
        have hl' := (lit hi hj).1 hl
        exact ⟨i, j, inside hi hj hl', hj, hl', by rw [← ht, e1, e2]⟩
      · rintro ⟨i, j, hi, hj, hl, e⟩
        rw [← ht] at e
        exact ⟨i, j, by omega, hj, (lit (by omega) hj).2 hl, (Prod.mk.inj e).1, (Prod.mk.inj e).2⟩
    · rw [if_neg hi]
      refine Draws.refl u ?_
      rintro x' y' ho ⟨i, j, hi', hj, hl, e⟩
      rw [← ht] at e
      obtain ⟨c1, c2⟩ := hc i j hi' hj
      rw [← (Prod.mk.inj e).1] at c1
      rw [← (Prod.mk.inj e).2] at c2
      rcases clip_any hu (by simpa using hi) ho with ⟨_, hn⟩ | ⟨_, hn⟩
      · exact hn c1
      · exact hn c2
  have cases4 : dir = 0 ∨ dir = 1 ∨ dir = 2 ∨ dir = 3 := by omega
  rcases cases4 with rfl | rfl | rfl | rfl
  · have e0 : (BitVec.ofNat 8 0 : Byte) = 0 := rfl
    rw [if_pos e0]
    have s1 : stepX 0 = 1#8 := rfl
    have s2 : stepY 0 = 0#8 := rfl
    refine core 0 8 0 0 1 _ _ _ _ _ _ (Or.inl rfl) (by decide) (by decide) ?_ ?_
    · intro i j
      simp only [turned]
      rw [tr, tu, s1, s2]
      generalize BitVec.ofNat 8 i = I
      generalize BitVec.ofNat 8 j = J
      congr 1 <;> grind
    · intro i j hi hj
      have k1 := l1 hi
      have k2 := l2 hj
      rw [s1, s2]
      generalize BitVec.ofNat 8 i = I at *
      generalize BitVec.ofNat 8 j = J at *
      constructor
      · have e : x + R + J * 0 + I * 1#8 - (x + R) = I := by grind
        rw [e]; exact k1
      · have e : y - U - 1 - H + 1 + J * 1 + I * 0#8 - (y - U - 1 - H + 1) = J := by grind
        rw [e]; exact k2
  · have e0 : ¬ (BitVec.ofNat 8 1 : Byte) = 0 := by decide
    have e1 : (BitVec.ofNat 8 1 : Byte) = 1 := rfl
    rw [if_neg e0, if_pos e1]
    have s1 : stepX 1 = 0#8 := rfl
    have s2 : stepY 1 = 1#8 := rfl
    refine core 1 0 8 (-1) 0 _ _ _ _ _ _ (Or.inr (Or.inl rfl)) (by decide) (by decide) ?_ ?_
    · intro i j
      simp only [turned]
      rw [tr, tu, s1, s2]
      generalize BitVec.ofNat 8 i = I
      generalize BitVec.ofNat 8 j = J
      congr 1 <;> grind
    · intro i j hi hj
      have k1 := l1 hi
      have k2 := l4 hj
      rw [s1, s2]
      generalize BitVec.ofNat 8 i = I at *
      generalize BitVec.ofNat 8 j = J at *
      constructor
      · have e : x + U + 1 + H - 1 + J * (-1) + I * 0#8 - (x + U + 1) = H - 1 - J := by grind
        rw [e]; exact k2
      · have e : y + R + J * 0 + I * 1#8 - (y + R) = I := by grind
        rw [e]; exact k1
  · have e0 : ¬ (BitVec.ofNat 8 2 : Byte) = 0 := by decide
    have e1 : ¬ (BitVec.ofNat 8 2 : Byte) = 1 := by decide
    have e2 : (BitVec.ofNat 8 2 : Byte) = 2 := rfl
    rw [if_neg e0, if_neg e1, if_pos e2]
    have s1 : stepX 2 = -1 := rfl
    have s2 : stepY 2 = 0#8 := rfl
    refine core 2 (-8) 0 0 (-1) _ _ _ _ _ _ (Or.inr (Or.inr (Or.inl rfl))) (by decide) (by decide)
      ?_ ?_
    · intro i j
      simp only [turned]
      rw [tr, tu, s1, s2]
      generalize BitVec.ofNat 8 i = I
      generalize BitVec.ofNat 8 j = J
      congr 1 <;> grind
    · intro i j hi hj
      have k1 := l3 hi
      have k2 := l4 hj
      rw [s1, s2]
      generalize BitVec.ofNat 8 i = I at *
      generalize BitVec.ofNat 8 j = J at *
      constructor
      · have e : x - R + J * 0 + I * -1 - (x - R - (W - 1)) = W - 1 - I := by grind
        rw [e]; exact k1
      · have e : y + U + 1 + H - 1 + J * -1 + I * 0#8 - (y + U + 1) = H - 1 - J := by grind
        rw [e]; exact k2
  · have e0 : ¬ (BitVec.ofNat 8 3 : Byte) = 0 := by decide
    have e1 : ¬ (BitVec.ofNat 8 3 : Byte) = 1 := by decide
    have e2 : ¬ (BitVec.ofNat 8 3 : Byte) = 2 := by decide
    rw [if_neg e0, if_neg e1, if_neg e2]
    have s1 : stepX 3 = 0#8 := rfl
    have s2 : stepY 3 = -1 := rfl
    refine core 3 0 (-8) 1 0 _ _ _ _ _ _ (Or.inr (Or.inr (Or.inr rfl))) (by decide) (by decide)
      ?_ ?_
    · intro i j
      simp only [turned]
      rw [tr, tu, s1, s2]
      generalize BitVec.ofNat 8 i = I
      generalize BitVec.ofNat 8 j = J
      congr 1 <;> grind
    · intro i j hi hj
      have k1 := l3 hi
      have k2 := l2 hj
      rw [s1, s2]
      generalize BitVec.ofNat 8 i = I at *
      generalize BitVec.ofNat 8 j = J at *
      constructor
      · have e : x - U - 1 - H + 1 + J * 1 + I * 0#8 - (x - U - 1 - (H - 1)) = J := by grind
        rw [e]; exact k2
      · have e : y - R + J * 0 + I * -1 - (y - R - (W - 1)) = W - 1 - I := by grind
        rw [e]; exact k1

/-- The text is drawn letter by letter. -/
theorem draws_strLoop (dir : Nat) (hdir : dir < 4) {F : Font} {mem : Nat → Byte} (ho : F.Ok)
    (hs : F.StoredAt mem) (x0 y0 : Byte) :
    ∀ (s : List Byte) (u : U8g) (x y t : Byte) (pen : Int), Ready u →
      (∀ a b, turned dir x y a b = turned dir x0 y0 (pen + a) b) →
      Draws u (strLoop (BitVec.ofNat 8 dir) mem u x y t s).1
        (fun x' y' => ∃ a b, TextAt F s pen a b ∧ (x', y') = turned dir x0 y0 a b) ∧
      (strLoop (BitVec.ofNat 8 dir) mem u x y t s).2 = t + BitVec.ofInt 8 (advanceOf F s) := by
  intro s
  induction s with
  | nil =>
    intro u x y t pen _ _
    refine ⟨Draws.refl u ?_, ?_⟩
    · rintro x' y' _ ⟨a, b, h, _⟩
      exact h
    · show t = t + BitVec.ofInt 8 0
      simp
  | cons c s ih =>
    intro u x y t pen hu hp
    unfold strLoop
    cases hc : F.letter c with
    | none =>
      have hg : drawGlyph (BitVec.ofNat 8 dir) mem u x y c = (u, 0) := by
        unfold drawGlyph
        rw [getGlyph_spec ho hs, hc]
        rfl
      rw [hg]
      have a0 : ∀ z : Byte, z + 0 = z := fun z => BitVec.add_zero z
      have s0 : ∀ z : Byte, z - 0 = z := fun z => BitVec.sub_zero z
      simp only [a0, s0, ite_self, TextAt, advanceOf, hc, Int.zero_add]
      exact ih u x y t pen hu hp
    | some g =>
      obtain ⟨hok, p, m, h1, mw, mh, mx, my, md, mm⟩ := found ho hs hc
      have hg : drawGlyph (BitVec.ofNat 8 dir) mem u x y c
          = (drawFound (BitVec.ofNat 8 dir) mem u x y (p + glyphSize mem) m,
              BitVec.ofInt 8 g.advance) := by
        unfold drawGlyph
        rw [h1, ← md]
      rw [hg]
      have d1 := draws_found hu dir hdir x y hok mw mh mx my mm
      have key : ∀ x1 y1 : Byte,
          (∀ a b, turned dir x1 y1 a b = turned dir x y (g.advance + a) b) →
          Draws u (strLoop (BitVec.ofNat 8 dir) mem
              (drawFound (BitVec.ofNat 8 dir) mem u x y (p + glyphSize mem) m) x1 y1
              (t + BitVec.ofInt 8 g.advance) s).1
            (fun x' y' => ∃ a b, TextAt F (c :: s) pen a b ∧ (x', y') = turned dir x0 y0 a b) ∧
          (strLoop (BitVec.ofNat 8 dir) mem
              (drawFound (BitVec.ofNat 8 dir) mem u x y (p + glyphSize mem) m) x1 y1
              (t + BitVec.ofInt 8 g.advance) s).2
            = t + BitVec.ofInt 8 (advanceOf F (c :: s)) := by
        intro x1 y1 h
        obtain ⟨d2, r2⟩ := ih _ x1 y1 (t + BitVec.ofInt 8 g.advance) (pen + g.advance)
          (d1.ready hu) (by intro a b; rw [h, hp, Int.add_assoc])
        refine ⟨(d1.trans d2).congr fun x' y' _ => ?_, ?_⟩
        · simp only [TextAt, hc]
          constructor
          · rintro (⟨i, j, hi, hj, hl, e⟩ | ⟨a, b, ht, e⟩)
            · exact ⟨_, _, Or.inl ⟨i, j, hi, hj, hl, rfl, rfl⟩, by
                rw [e, hp, Int.add_assoc]⟩
            · exact ⟨a, b, Or.inr ht, e⟩
          · rintro ⟨a, b, ⟨i, j, hi, hj, hl, rfl, rfl⟩ | ht, e⟩
            · exact Or.inl ⟨i, j, hi, hj, hl, by rw [e, hp, Int.add_assoc]⟩
            · exact Or.inr ⟨a, b, ht, e⟩
        · rw [r2]
          simp only [advanceOf, hc]
          rw [BitVec.ofInt_add, BitVec.add_assoc]
      have cases4 : dir = 0 ∨ dir = 1 ∨ dir = 2 ∨ dir = 3 := by omega
      rcases cases4 with rfl | rfl | rfl | rfl
      · refine key _ _ fun a b => ?_
        show (x + _ + _, _) = (x + _, _)
        rw [BitVec.ofInt_add, BitVec.add_assoc]
        rfl
      · refine key _ _ fun a b => ?_
        show (x + 1 + _, y + _ + _) = (x + 1 + _, y + _)
        rw [BitVec.ofInt_add]
        congr 1
        grind
      · refine key _ _ fun a b => ?_
        show (x - _ - _, _) = (x - _, _)
        rw [BitVec.ofInt_add]
        congr 1
        grind
      · refine key _ _ fun a b => ?_
        show (_, y - _ - _) = (_, y - _)
        rw [BitVec.ofInt_add]
        congr 1
        grind

/-- How far the reference position is above (positive: below) the line, as the library's
callbacks compute it, moves the text. -/
theorem draws_str {u} (hu : Ready u) (dir : Nat) {F : Font} {mem : Nat → Byte} (ho : F.Ok)
    (hs : F.StoredAt mem) (v x y : Byte) (s : List Byte) (hdir : dir < 4) :
    Draws u (drawStr (BitVec.ofNat 8 dir) mem v u x y s).1
      (fun x' y' => ∃ a b, TextAt F s 0 a b ∧ (x', y') = turned dir x y a (b - v.toInt)) ∧
    (drawStr (BitVec.ofNat 8 dir) mem v u x y s).2 = BitVec.ofInt 8 (advanceOf F s) := by
  have hv : ∀ b : Int, BitVec.ofInt 8 (b - v.toInt) = BitVec.ofInt 8 b - v := by
    intro b
    rw [Int.sub_eq_add_neg, BitVec.ofInt_add, BitVec.ofInt_neg, BitVec.ofInt_toInt,
      BitVec.sub_eq_add_neg]
  have z0 : ∀ z : Byte, 0 + z = z := fun z => BitVec.zero_add z
  have z : ∀ (d : Nat) (x y : Byte) (a b : Int), turned d x y a b = turned d x y (0 + a) b := by
    intro d x y a b; rw [Int.zero_add]
  have cases4 : dir = 0 ∨ dir = 1 ∨ dir = 2 ∨ dir = 3 := by omega
  rcases cases4 with rfl | rfl | rfl | rfl
  · obtain ⟨d, r⟩ := draws_strLoop 0 (by omega) ho hs x (y + v) s u x (y + v) 0 0 hu (z _ _ _)
    refine ⟨d.congr fun x' y' _ => ?_, by rw [z0] at r; exact r⟩
    have e : ∀ a b, turned 0 x (y + v) a b = turned 0 x y a (b - v.toInt) := by
      intro a b; simp only [turned]; rw [hv]; congr 1; grind
    simp only [e]
  · obtain ⟨d, r⟩ := draws_strLoop 1 (by omega) ho hs (x - v) y s u (x - v) y 0 0 hu (z _ _ _)
    refine ⟨d.congr fun x' y' _ => ?_, by rw [z0] at r; exact r⟩
    have e : ∀ a b, turned 1 (x - v) y a b = turned 1 x y a (b - v.toInt) := by
      intro a b; simp only [turned]; rw [hv]; congr 1; grind
    simp only [e]
  · obtain ⟨d, r⟩ := draws_strLoop 2 (by omega) ho hs x (y - v) s u x (y - v) 0 0 hu (z _ _ _)
    refine ⟨d.congr fun x' y' _ => ?_, by rw [z0] at r; exact r⟩
    have e : ∀ a b, turned 2 x (y - v) a b = turned 2 x y a (b - v.toInt) := by
      intro a b; simp only [turned]; rw [hv]; congr 1; grind
    simp only [e]
  · obtain ⟨d, r⟩ := draws_strLoop 3 (by omega) ho hs (x + v) y s u (x + v) y 0 0 hu (z _ _ _)
    refine ⟨d.congr fun x' y' _ => ?_, by rw [z0] at r; exact r⟩
    have e : ∀ a b, turned 3 (x + v) y a b = turned 3 x y a (b - v.toInt) := by
      intro a b; simp only [turned]; rw [hv]; congr 1; grind
    simp only [e]

end Verif.U8g
