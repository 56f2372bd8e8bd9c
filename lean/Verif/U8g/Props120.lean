import Verif.U8g.Props118

/-!
# C120: texts on the graphical display

A text is drawn letter by letter from a font in memory: each letter is searched in the font,
copied to the display in one of four directions, and the writing position moves on. The
property says that the display shows the letters of the font, in order, where they belong,
and that the width the library reports is the way the writing position moves.
-/

namespace Verif.U8g

/-- **C120**: the search finds exactly the letters of the font. A code without letter is not
found; a code with a letter gives its size, its place, its advance and its rows. -/
theorem C120_letter {F : Font} {mem : Nat → Byte} (ho : F.Ok) (hs : F.StoredAt mem) (c : Byte) :
    (F.letter c = none → getGlyph mem c = none) ∧
    ∀ g, F.letter c = some g → ∃ p m, getGlyph mem c = some (p, m) ∧
      m.width.toNat = g.width ∧ m.height.toNat = g.height ∧
      m.x.toInt = g.right ∧ m.y.toInt = g.up ∧ m.dx.toInt = g.advance ∧
      ∀ i, i < g.data.length → mem (p + glyphSize mem + i) = g.data.getD i 0 := by
  constructor
  · intro h
    rw [getGlyph_spec ho hs c, h]
    rfl
  · intro g h
    obtain ⟨k, p, m, e, mw, mh, mx, my, md, mm⟩ := found ho hs h
    obtain ⟨b1, b2, b3, b4, b5, b6, b7, b8⟩ := k.bounds
    have hi : ∀ z : Int, -128 ≤ z → z ≤ 127 → (BitVec.ofInt 8 z).toInt = z := by
      intro z h1 h2
      rw [BitVec.toInt_ofInt]
      exact Int.bmod_eq_of_le (by simpa using h1) (by simp; omega)
    refine ⟨p, m, e, ?_, ?_, ?_, ?_, ?_, mm⟩
    · rw [mw, BitVec.toNat_ofNat]; omega
    · rw [mh, BitVec.toNat_ofNat]; omega
    · rw [mx, hi _ b3 b4]
    · rw [my, hi _ b5 b6]
    · rw [md, hi _ b7 b8]

/-- **C120**: a text in any of the four directions, with any reference position, on a display
of any width and 8 to 248 rows, mounted in any of the four ways: lit are exactly the points
of the letters. A centred text needs a font whose height fits into eight bits. -/
theorem C120_text (u : U8g) {F : Font} {mem : Nat → Byte} (ho : F.Ok) (hs : F.StoredAt mem)
    (mode : HeightMode) (pos : FontPos) (dir x y : Byte) (s : List Byte) (hd : dir < 4)
    (hc : pos = .center → -128 ≤ (heights mem mode).1 - (heights mem mode).2 ∧
      (heights mem mode).1 - (heights mem mode).2 ≤ 127) {W H : Nat}
    (hW : u.pb.width.toNat = W) (hW0 : 0 < W) (hph : u.pb.p.pageHeight = 8)
    (hH : u.pb.p.totalHeight.toNat = H) (h8 : 8 ≤ H) (hmax : H ≤ 248) :
    ∃ u' out, pictureLoop [.color 1, .text mem mode pos dir x y s] ((H + 7) / 8) (firstPage u)
        = some u' ∧
      u'.sent = u.sent ++ out ∧ out.length = (H + 7) / 8 ∧
      ∀ X Y, X < W → Y < H → ∃ e, out[Y / 8]? = some e ∧
        ((e.2.getD X 0).getLsbD (Y % 8) = true ↔
          ∃ a b : Int, TextAt F s 0 a b ∧
            (BitVec.ofNat 8 (userPoint u.rot W H X Y).1, BitVec.ofNat 8 (userPoint u.rot W H X Y).2)
              = turned dir.toNat x y a (b - reference mem mode pos)) := by
  obtain ⟨u', out, h1, h2, h3, h4⟩ := pages_point u (.text mem mode pos dir x y s)
    (fun _ h => by cases h) hW hW0 hph hH h8 hmax ⟨⟨F, ho, hs⟩, hc⟩
  refine ⟨u', out, h1, h2, h3, fun X Y hX hY => ?_⟩
  obtain ⟨e, he, h5⟩ := h4 X Y hX hY
  refine ⟨e, he, h5.trans ?_⟩
  constructor
  · rintro ⟨_, F', ho', hs', a, b, k1, k2⟩
    exact ⟨a, b, same_text ho hs ho' hs' s 0 a b k1, k2⟩
  · rintro ⟨a, b, k1, k2⟩
    exact ⟨hd, F, ho, hs, a, b, k1, k2⟩

theorem advanceOf_cons (F : Font) (c : Byte) (s : List Byte) :
    advanceOf F (c :: s) = advanceOf F [c] + advanceOf F s := by
  simp [advanceOf]

theorem width_step {F : Font} {mem : Nat → Byte} (ho : F.Ok) (hs : F.StoredAt mem) (c w : Byte) :
    [c].foldl (fun w c => w + match getGlyph mem c with | none => 0 | some (_, g) => g.dx) w
      = w + BitVec.ofInt 8 (advanceOf F [c]) := by
  simp only [List.foldl_cons, List.foldl_nil, advanceOf]
  cases h : F.letter c with
  | none =>
    rw [(C120_letter ho hs c).1 h]
    rfl
  | some g =>
    obtain ⟨_, p, m, e, _, _, _, _, md, _⟩ := found ho hs h
    rw [e]
    simp only [Int.add_zero, md]

/-- **C120**: the width of a text, whether asked for or returned by the drawing, is the sum of
the advances of its letters, in the arithmetic of eight bits. -/
theorem C120_width {F : Font} {mem : Nat → Byte} (ho : F.Ok) (hs : F.StoredAt mem) {u : U8g}
    (hu : Ready u) (dir v x y : Byte) (s : List Byte) (hd : dir < 4) :
    getStrWidth mem s = BitVec.ofInt 8 (advanceOf F s) ∧
    (drawStr dir mem v u x y s).2 = getStrWidth mem s := by
  have h1 : getStrWidth mem s = BitVec.ofInt 8 (advanceOf F s) := by
    unfold getStrWidth
    have step := width_step ho hs
    generalize (fun (w c : Byte) => w + match getGlyph mem c with | none => 0 | some (_, g) => g.dx)
      = f at step ⊢
    have key : ∀ (s : List Byte) (w : Byte), s.foldl f w = w + BitVec.ofInt 8 (advanceOf F s) := by
      intro s
      induction s with
      | nil => intro w; simp [advanceOf]
      | cons c s ih =>
        intro w
        have e := step c w
        simp only [List.foldl_cons, List.foldl_nil] at e
        rw [List.foldl_cons, ih, e, advanceOf_cons F c s, BitVec.ofInt_add, BitVec.add_assoc]
    rw [key]
    exact BitVec.zero_add _
  have hd' : dir.toNat < 4 := hd
  have e : dir = BitVec.ofNat 8 dir.toNat := by simp
  refine ⟨h1, ?_⟩
  rw [h1, e]
  exact (draws_str hu dir.toNat ho hs v x y s hd').2

/-- The position `w` further in the direction of the text. -/
def further (dir x y w : Byte) : Byte × Byte :=
  if dir = 0 then (x + w, y) else if dir = 1 then (x, y + w)
  else if dir = 2 then (x - w, y) else (x, y - w)

theorem strLoop_append (dir : Byte) (hd : dir < 4) (mem : Nat → Byte) (r : List Byte) :
    ∀ (s : List Byte) (u : U8g) (x y t : Byte),
      strLoop dir mem u x y t (s ++ r)
        = strLoop dir mem (strLoop dir mem u x y t s).1
            (further dir x y ((strLoop dir mem u x y t s).2 - t)).1
            (further dir x y ((strLoop dir mem u x y t s).2 - t)).2
            (strLoop dir mem u x y t s).2 r := by
  have z : ∀ w : Byte, w - w = 0 := by intro w; bv_omega
  have hd4 : dir = 0 ∨ dir = 1 ∨ dir = 2 ∨ dir = 3 := by bv_omega
  intro s
  induction s with
  | nil =>
    intro u x y t
    simp only [strLoop, List.nil_append, z]
    rcases hd4 with rfl | rfl | rfl | rfl <;> simp [further]
  | cons c s ih =>
    intro u x y t
    simp only [List.cons_append, strLoop]
    rw [ih]
    generalize drawGlyph dir mem u x y c = q
    rcases hd4 with rfl | rfl | rfl | rfl
    · simp only [if_pos]
      generalize strLoop _ mem q.1 _ _ _ s = l
      simp only [further, if_pos]
      congr 1
      · grind
    · generalize strLoop _ mem q.1 _ _ _ s = l
      simp only [further]
      congr 1
      · simp; grind
    · generalize strLoop _ mem q.1 _ _ _ s = l
      simp only [further]
      congr 1
      · simp; grind
    · generalize strLoop _ mem q.1 _ _ _ s = l
      simp only [further]
      congr 1
      · simp; grind

theorem strLoop_sum (dir : Byte) (mem : Nat → Byte) : ∀ (s : List Byte) (u : U8g) (x y t : Byte),
    strLoop dir mem u x y t s
      = ((strLoop dir mem u x y 0 s).1, t + (strLoop dir mem u x y 0 s).2) := by
  intro s
  induction s with
  | nil => intro u x y t; simp [strLoop]
  | cons c s ih =>
    intro u x y t
    simp only [strLoop]
    generalize drawGlyph dir mem u x y c = q
    rw [ih _ _ _ (t + q.2), ih _ _ _ (0 + q.2)]
    simp only [Prod.mk.injEq, true_and]
    grind

/-- **C120**: a text may be drawn in parts. Drawing the second part at the position that is
as far from the first as the first call returned is the same as one call with both. -/
theorem C120_append (dir : Byte) (hd : dir < 4) (mem : Nat → Byte) (v : Byte) (u : U8g) (x y : Byte)
    (s r : List Byte) :
    drawStr dir mem v u x y (s ++ r)
      = ((drawStr dir mem v (drawStr dir mem v u x y s).1
            (further dir x y (drawStr dir mem v u x y s).2).1
            (further dir x y (drawStr dir mem v u x y s).2).2 r).1,
         (drawStr dir mem v u x y s).2 +
           (drawStr dir mem v (drawStr dir mem v u x y s).1
            (further dir x y (drawStr dir mem v u x y s).2).1
            (further dir x y (drawStr dir mem v u x y s).2).2 r).2) := by
  have hd4 : dir = 0 ∨ dir = 1 ∨ dir = 2 ∨ dir = 3 := by bv_omega
  have z : ∀ w : Byte, w - 0 = w := by intro w; bv_omega
  have k : ∀ a b c : Byte, a + b + c = a + c + b := by intro a b c; grind
  have k2 : ∀ a b c : Byte, a - b + c = a + c - b := by intro a b c; grind
  have k3 : ∀ a b c : Byte, a - b - c = a - c - b := by intro a b c; grind
  have k4 : ∀ a b c : Byte, a + b - c = a - c + b := by intro a b c; grind
  rcases hd4 with rfl | rfl | rfl | rfl
  · show strLoop 0 mem u x (y + v) 0 (s ++ r) = _
    rw [strLoop_append 0 (by decide), strLoop_sum]
    simp [drawStr, further]
  · show strLoop 1 mem u (x - v) y 0 (s ++ r) = _
    rw [strLoop_append 1 (by decide), strLoop_sum]
    simp [drawStr, further]
  · show strLoop 2 mem u x (y - v) 0 (s ++ r) = _
    rw [strLoop_append 2 (by decide), strLoop_sum]
    simp [drawStr, further]
  · show strLoop 3 mem u (x + v) y 0 (s ++ r) = _
    rw [strLoop_append 3 (by decide), strLoop_sum]
    simp [drawStr, further]

/-- **C120**: where the given row is. With the baseline as reference it is the row below the
points on the line, with the bottom the row below the deepest row of the reference letters,
with the top the row above their highest row. -/
theorem C120_reference (mem : Nat → Byte) (mode : HeightMode) (x y : Byte) (a : Int) :
    (turned 0 x y a (0 - reference mem mode .baseline)).2 = y - 1 ∧
    (turned 0 x y a ((heights mem mode).2 - reference mem mode .bottom)).2 = y - 1 ∧
    (turned 0 x y a ((heights mem mode).1 - 1 - reference mem mode .top)).2 = y + 1 := by
  refine ⟨?_, ?_, ?_⟩
  · simp [turned, reference]
  · simp [turned, reference]
  · have e : (heights mem mode).1 - 1 - reference mem mode .top = -2 := by
      simp only [reference]; omega
    rw [e]
    simp only [turned]
    have : BitVec.ofInt 8 (-2) = (-2 : Byte) := rfl
    rw [this]
    grind

/-- **C120**, a finding: a text in program memory that runs downwards, upside down or upwards is
displaced: the reference height is applied to the text and once more to each letter. Only a
text to the right is drawn as one from ordinary memory. -/
theorem C120_program_memory (mem : Nat → Byte) (v : Byte) (u : U8g) (x y : Byte) (s : List Byte) :
    drawStrP 0 mem v u x y s = drawStr 0 mem v u x y s ∧
    drawStrP 1 mem v u x y s = drawStr 1 mem v u (x - v) y s ∧
    drawStrP 2 mem v u x y s = drawStr 2 mem v u x (y - v) s ∧
    drawStrP 3 mem v u x y s = drawStr 3 mem v u (x + v) y s :=
  ⟨rfl, rfl, rfl, rfl⟩

/-! ## A font -/

/-- A letter of five columns with its top row empty in the middle, and one below the line. -/
def demoA : Letter := ⟨5, 3, 1, 0, 7, [0x88, 0xF8, 0x88]⟩

/-- A letter with two bytes per row. -/
def demoC : Letter := ⟨9, 2, 0, -1, 10, [0xFF, 0x80, 0x01, 0x80]⟩

/-- A font for the codes 65 to 67, without 66. -/
def demoFont : Font := ⟨true, 65, [some demoA, none, some demoC]⟩

/-- The same letters in the other form. -/
def demoLarge : Font := ⟨false, 65, [some demoA, none, some demoC]⟩

/-- The bytes of the two fonts. -/
def demoBytes (F : Font) : List Byte :=
  [if F.small then 1 else 0, 0, 0, 0, 0, 3, 0, 17, 0, 0, 65, 67, 255, 3, 255, 3, 255]
    ++ entriesBytes F.small F.letters

/-- The memory with the font. -/
def demoMem (F : Font) : Nat → Byte := fun i => (demoBytes F).getD i 0

instance (g : Letter) (i j : Nat) : Decidable (g.Lit i j) := by unfold Letter.Lit; infer_instance

theorem demo_letters (small : Bool) : demoA.Ok small ∧ demoC.Ok small := by
  constructor
  · refine ⟨rfl, ?_, fun _ => by decide, fun _ => by decide⟩
    intro i j h1 h2 h3
    have : ∀ i < 8, ∀ j < 3, 5 ≤ i → ¬ demoA.Lit i j := by decide
    exact this i h2 j h3 h1
  · refine ⟨rfl, ?_, fun _ => by decide, fun _ => by decide⟩
    intro i j h1 h2 h3
    have : ∀ i < 16, ∀ j < 2, 9 ≤ i → ¬ demoC.Lit i j := by decide
    exact this i h2 j h3 h1

theorem demo_ok (F : Font) (hF : F = demoFont ∨ F = demoLarge) : F.Ok := by
  rcases hF with rfl | rfl
  all_goals
    refine ⟨by decide, by decide, ?_⟩
    intro g hg
    simp only [demoFont, demoLarge, List.mem_cons, Option.some.injEq, List.not_mem_nil, or_false,
      reduceCtorEq, false_or] at hg
    rcases hg with rfl | rfl
    · exact (demo_letters _).1
    · exact (demo_letters _).2

theorem demo_stored (F : Font) (hF : F = demoFont ∨ F = demoLarge) : F.StoredAt (demoMem F) := by
  rcases hF with rfl | rfl
  all_goals
    refine ⟨by decide, by decide, by decide, Or.inr ⟨0, by decide, by decide, by decide⟩,
      Or.inl (by decide), ?_⟩
    intro i _
    show (demoBytes _).getD (17 + i) 0 = _
    unfold demoBytes
    rw [List.getD_eq_getElem?_getD, List.getElem?_append_right (by simp),
      List.getD_eq_getElem?_getD]
    congr 2
    simp

/-- The text "ABC": the code without letter leaves no trace; a point of each letter, and the
width. -/
example : demoFont.letter 66 = none ∧ TextAt demoFont [65, 66, 67] 0 1 2 ∧
    TextAt demoFont [65, 66, 67] 0 15 (-1) ∧ ¬ TextAt demoFont [65, 66, 67] 0 2 2 ∧
    advanceOf demoFont [65, 66, 67] = 17 ∧
    getStrWidth (demoMem demoFont) [65, 66, 67] = 17 := by
  have l1 : demoFont.letter 65 = some demoA := by rfl
  have l2 : demoFont.letter 66 = none := by rfl
  have l3 : demoFont.letter 67 = some demoC := by rfl
  refine ⟨l2, ?_, ?_, ?_, ?_, ?_⟩
  · simp only [TextAt, l1]
    exact Or.inl ⟨0, 0, by decide, by decide, by decide, by decide, by decide⟩
  · simp only [TextAt, l1, l2, l3]
    exact Or.inr (Or.inl ⟨8, 1, by decide, by decide, by decide, by decide, by decide⟩)
  · simp only [TextAt, l1, l2, l3, or_false]
    rintro (⟨i, j, h1, h2, h3, h4, h5⟩ | ⟨i, j, h1, h2, h3, h4, h5⟩)
    · have e1 : i = 1 := by simp only [demoA] at h4; omega
      have e2 : j = 0 := by simp only [demoA] at h5; omega
      subst e1; subst e2
      exact absurd h3 (by decide)
    · simp only [demoA, demoC] at h4; omega
  · decide +kernel
  · decide +kernel

end Verif.U8g
