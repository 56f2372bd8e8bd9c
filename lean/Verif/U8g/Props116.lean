import Verif.U8g.Pages

/-!
# C116: the picture loop shows the picture, whatever the pages, the clipping and the rotation

The library has no room for the whole picture. It keeps eight rows, calls the user's
drawing procedure once for each group of eight rows, skips figures that do not meet these
rows and sends the rows to the display. The property says that the display finally shows
the picture that the calls describe, for every drawing procedure, size and rotation.
-/

namespace Verif.U8g

/-- **C116.** For a display of any width and of 8 to 248 rows, for every rotation and every
drawing procedure: the loop ends after as many passes as there are groups of eight rows,
the groups are sent in order, each with the picture's points, and no byte behind the
buffer is written. The picture of the first group starts with the colour the user has
chosen, that of the others with the colour the drawing procedure has left. -/
theorem C116_picture (u : U8g) (cs : List Cmd) {W H : Nat}
    (hW : u.pb.width.toNat = W) (hW0 : 0 < W)
    (hph : u.pb.p.pageHeight = 8) (hH : u.pb.p.totalHeight.toNat = H) (h8 : 8 ≤ H)
    (hmax : H ≤ 248) (ha : ∀ c ∈ cs, Allowed c) (n : Nat) (hn : (H + 7) / 8 ≤ n) :
    ∃ u' out, pictureLoop cs n (firstPage u) = some u' ∧ u'.sent = u.sent ++ out ∧
      out.length = (H + 7) / 8 ∧
      (∀ k e, out[k]? = some e →
        IsPage cs (if k = 0 then u.color else lastColor cs u.color) u.rot W H k e) ∧
      (∀ i, W ≤ i → u'.pb.mem i = u.pb.mem i) := by
  obtain ⟨hat, hz, hoff⟩ := atPage_first hW hph hH h8
  obtain ⟨u', out, h1, h2, h3, h4, h5⟩ := loop_spec cs ha hW0 hmax ((H + 7) / 8 - 1) 0
    (firstPage u) (by omega) (by omega) hat hz n (by omega)
  refine ⟨u', out, h1, h2, by omega, ?_, fun i hi => (h5 i hi).trans (hoff i hi)⟩
  intro k e he
  have := h4 k e he
  rw [Nat.zero_add] at this
  exact this

theorem picture_color (cs : List Cmd) (i c d px py : Byte) :
    picture (.color i :: cs) c px py = picture (.color i :: cs) d px py := rfl

/-- **C116.** A drawing procedure that chooses its colour first, or never chooses one,
draws one picture: every group of rows shows the same one. -/
theorem C116_one_picture (u : U8g) (cs : List Cmd) {W H : Nat}
    (hW : u.pb.width.toNat = W) (hW0 : 0 < W)
    (hph : u.pb.p.pageHeight = 8) (hH : u.pb.p.totalHeight.toNat = H) (h8 : 8 ≤ H)
    (hmax : H ≤ 248) (ha : ∀ c ∈ cs, Allowed c) (n : Nat) (hn : (H + 7) / 8 ≤ n)
    (hc : (∃ i l, cs = .color i :: l) ∨ (∀ i, .color i ∉ cs)) :
    ∃ u' out, pictureLoop cs n (firstPage u) = some u' ∧ u'.sent = u.sent ++ out ∧
      out.length = (H + 7) / 8 ∧
      (∀ k e, out[k]? = some e → IsPage cs u.color u.rot W H k e) := by
  obtain ⟨u', out, h1, h2, h3, h4, _⟩ := C116_picture u cs hW hW0 hph hH h8 hmax ha n hn
  refine ⟨u', out, h1, h2, h3, fun k e he => ?_⟩
  have hk := h4 k e he
  rcases hc with ⟨i, l, rfl⟩ | hc
  · obtain ⟨a, b, c⟩ := hk
    exact ⟨a, b, fun X j hX hj hY => (c X j hX hj hY).trans (picture_color l i _ _ _ _)⟩
  · have hl : ∀ (l : List Cmd) (d : Byte), (∀ i, .color i ∉ l) → lastColor l d = d := by
      intro l
      induction l with
      | nil => intro d _; rfl
      | cons c l ih =>
        intro d h
        rw [lastColor_cons c l d (fun i e => h i (by rw [e]; exact List.mem_cons_self))]
        exact ih d (fun i hi => h i (List.mem_cons_of_mem _ hi))
    rw [hl cs u.color hc] at hk
    simpa using hk

theorem lcd_data (k : Nat) : ∀ (bs : List Byte) (l : Lcd), l.bank = k →
    l.col + bs.length ≤ 84 →
    ∀ K X, ((bs.map .dat).foldl lcdByte l).ram K X
      = if K = k ∧ l.col ≤ X ∧ X < l.col + bs.length then bs.getD (X - l.col) 0 else l.ram K X := by
  intro bs
  induction bs with
  | nil =>
    intro l _ _ K X
    rw [if_neg (by rw [List.length_nil]; omega)]
    rfl
  | cons b bs ih =>
    intro l hb hc K X
    rw [List.length_cons] at hc
    by_cases h83 : l.col = 83
    · have hl : bs = [] := List.eq_nil_of_length_eq_zero (by omega)
      subst hl
      show (lcdByte l (.dat b)).ram K X = _
      simp only [lcdByte]
      by_cases hq : K = l.bank ∧ X = l.col
      · rw [if_pos hq, if_pos ⟨by omega, by omega, by rw [List.length_cons]; omega⟩]
        obtain ⟨_, rfl⟩ := hq
        simp
      · rw [if_neg hq, if_neg (by simp; omega)]
    · have hs : lcdByte l (.dat b)
          = { ram := fun k c => if k = l.bank ∧ c = l.col then b else l.ram k c
              col := l.col + 1, bank := l.bank } := by
        simp only [lcdByte, if_neg h83]
      show ((bs.map .dat).foldl lcdByte (lcdByte l (.dat b))).ram K X = _
      have hi := ih (lcdByte l (.dat b)) (by rw [hs]; exact hb)
        (by rw [hs]; show l.col + 1 + bs.length ≤ 84; omega) K X
      rw [hs] at hi ⊢
      rw [hi]
      simp only [List.length_cons]
      by_cases hq : K = k ∧ l.col + 1 ≤ X ∧ X < l.col + 1 + bs.length
      · rw [if_pos hq, if_pos ⟨hq.1, by omega, by omega⟩]
        have : X - l.col = (X - (l.col + 1)) + 1 := by omega
        rw [this, List.getD_cons_succ]
      · rw [if_neg hq]
        by_cases hq2 : K = l.bank ∧ X = l.col
        · rw [if_pos hq2, if_pos ⟨by omega, by omega, by omega⟩]
          obtain ⟨_, rfl⟩ := hq2
          simp
        · rw [if_neg hq2, if_neg (by omega)]

theorem lcd_page (l : Lcd) (k : Nat) (hk : k < 6) (bs : List Byte) (hb : bs.length = 84)
    (K X : Nat) (hX : X < 84) :
    ((pcd8544Page (BitVec.ofNat 8 k, bs)).foldl lcdByte l).ram K X
      = if K = k then bs.getD X 0 else l.ram K X := by
  have hcmd : ∀ k : Fin 6, ¬ (0x80 : Byte) ≤ 0x40 ||| BitVec.ofNat 8 k.val ∧
      (0x40 : Byte) ≤ 0x40 ||| BitVec.ofNat 8 k.val ∧
      ((0x40 ||| BitVec.ofNat 8 k.val : Byte) &&& 0x07).toNat = k.val := by decide +kernel
  obtain ⟨c1, c2, c3⟩ := hcmd ⟨k, hk⟩
  have hs : [Out.cmd 0x20, Out.cmd 0x80, Out.cmd (0x40 ||| BitVec.ofNat 8 k)].foldl lcdByte l
      = { l with col := 0, bank := k } := by
    simp only [List.foldl_cons, List.foldl_nil, lcdByte]
    rw [if_neg (by decide : ¬ (0x80 : Byte) ≤ 0x20), if_neg (by decide : ¬ (0x40 : Byte) ≤ 0x20),
      if_pos (by decide : (0x80 : Byte) ≤ 0x80), if_neg c1, if_pos c2, c3]
    rfl
  unfold pcd8544Page
  rw [List.foldl_append, hs, lcd_data k bs _ rfl (by show 0 + bs.length ≤ 84; omega) K X]
  by_cases h : K = k
  · rw [if_pos ⟨h, Nat.zero_le _, by show X < 0 + bs.length; omega⟩, if_pos h]
    rfl
  · rw [if_neg (fun hh => h hh.1), if_neg h]

theorem lcd_pages : ∀ (out : List (Byte × List Byte)) (k0 : Nat) (l : Lcd),
    k0 + out.length ≤ 6 →
    (∀ i e, out[i]? = some e → e.1 = BitVec.ofNat 8 (k0 + i) ∧ e.2.length = 84) →
    ∀ K X, X < 84 →
      (∀ i e, K = k0 + i → out[i]? = some e → (lcdRun l out).ram K X = e.2.getD X 0) ∧
      (K < k0 ∨ k0 + out.length ≤ K → (lcdRun l out).ram K X = l.ram K X) := by
  intro out
  induction out with
  | nil => intro k0 l _ _ K X _; exact ⟨fun i e _ h => by simp at h, fun _ => rfl⟩
  | cons p out ih =>
    intro k0 l hlen hall K X hX
    have hp := hall 0 p rfl
    have hrun : lcdRun l (p :: out) = lcdRun ((pcd8544Page p).foldl lcdByte l) out := by
      unfold lcdRun
      rw [List.flatMap_cons, List.foldl_append]
    rw [List.length_cons] at hlen
    have hrest := ih (k0 + 1) ((pcd8544Page p).foldl lcdByte l) (by omega)
      (fun i e he => by
        have := hall (i + 1) e (by rw [List.getElem?_cons_succ]; exact he)
        have e1 : k0 + (i + 1) = k0 + 1 + i := by omega
        rw [e1] at this
        exact this) K X hX
    have hpe : p = (BitVec.ofNat 8 k0, p.2) := by
      have := hp.1
      rw [Nat.add_zero] at this
      rw [← this]
    have hpage : ((pcd8544Page p).foldl lcdByte l).ram K X
        = if K = k0 then p.2.getD X 0 else l.ram K X := by
      have := lcd_page l k0 (by omega) p.2 hp.2 K X hX
      rw [← hpe] at this
      exact this
    rw [hrun]
    constructor
    · intro i e hK he
      cases i with
      | zero =>
        simp at he
        subst he
        rw [hrest.2 (Or.inl (by omega)), hpage, if_pos (by omega)]
      | succ i =>
        rw [List.getElem?_cons_succ] at he
        exact hrest.1 i e (by omega) he
    · intro h
      rw [List.length_cons] at h
      rw [hrest.2 (by omega), hpage, if_neg (by omega)]

/-- **C116**, for the PCD8544 display with 84 columns and 48 rows: after the loop each
point of the display is as the picture says, whatever the display showed before, for every
rotation and every drawing procedure. -/
theorem C116_pcd8544 (u : U8g) (l : Lcd) (cs : List Cmd)
    (hW : u.pb.width = pcd8544Pb.width) (hph : u.pb.p.pageHeight = pcd8544Pb.p.pageHeight)
    (hH : u.pb.p.totalHeight = pcd8544Pb.p.totalHeight) (ha : ∀ c ∈ cs, Allowed c) :
    ∃ u' out, pictureLoop cs 6 (firstPage u) = some u' ∧ u'.sent = u.sent ++ out ∧
      ∀ X Y, X < 84 → Y < 48 →
        ((lcdRun l out).ram (Y / 8) X).getLsbD (Y % 8)
          = expected cs (if Y < 8 then u.color else lastColor cs u.color) u.rot 84 48 X Y := by
  obtain ⟨u', out, h1, h2, h3, h4, _⟩ := C116_picture u cs (W := 84) (H := 48)
    (by rw [hW]; rfl) (by decide) hph (by rw [hH]; rfl) (by decide) (by decide) ha 6 (by decide)
  refine ⟨u', out, h1, h2, fun X Y hX hY => ?_⟩
  have hlen : out.length = 6 := h3
  have hget : ∃ e, out[Y / 8]? = some e := by
    have : Y / 8 < out.length := by omega
    exact ⟨out[Y / 8], List.getElem?_eq_getElem this⟩
  obtain ⟨e, he⟩ := hget
  have hpg := h4 (Y / 8) e he
  have hram := (lcd_pages out 0 l (by omega) (fun i e he => by
    have := h4 i e he
    rw [Nat.zero_add]
    exact ⟨this.1, this.2.1⟩) (Y / 8) X hX).1 (Y / 8) e (by omega) he
  rw [hram]
  have hb := hpg.2.2 X (Y % 8) hX (by omega) (by omega)
  have e1 : 8 * (Y / 8) + Y % 8 = Y := by omega
  rw [e1] at hb
  rw [hb]
  by_cases hy : Y < 8
  · rw [if_pos hy, if_pos (by omega)]
  · rw [if_neg hy, if_neg (by omega)]

theorem pbSetPixel_p (b : Pb) (x y c : Byte) : (pbSetPixel b x y c).p = b.p := by
  unfold pbSetPixel setPixelRaw poke
  repeat' split
  all_goals rfl

theorem set8Loop_p : ∀ (n : Nat) (b : Pb) (x y dx dy c pixel : Byte),
    (set8Loop n b x y dx dy c pixel).p = b.p := by
  intro n
  induction n with
  | zero => intros; rfl
  | succ n ih =>
    intro b x y dx dy c pixel
    have h0 : (if pixel &&& 128 ≠ 0 then pbSetPixel b x y c else b).p = b.p := by
      by_cases h : pixel &&& 128 ≠ 0
      · rw [if_pos h, pbSetPixel_p]
      · rw [if_neg h]
    rw [set8Loop]
    by_cases h : pixel <<< 1 = 0
    · simp only [if_pos h]; exact h0
    · simp only [if_neg h]; rw [ih]; exact h0

theorem draw8Pixel_p (u : U8g) (x y dir pixel : Byte) :
    (draw8Pixel u x y dir pixel).pb.p = u.pb.p := by
  unfold draw8Pixel pbSet8Pixel
  split
  · exact set8Loop_p _ _ _ _ _ _ _ _
  · rfl

theorem hlineRaw_p (u : U8g) (x y w : Byte) : (hlineRaw u x y w).pb.p = u.pb.p := by
  induction u, x, w using hlineRaw.induct y with
  | case1 u x w h ih => rw [hlineRaw, dif_pos h, ih, draw8Pixel_p]
  | case2 u x w h h0 => rw [hlineRaw, dif_neg h, if_pos h0, draw8Pixel_p]
  | case3 u x w h h0 => rw [hlineRaw, dif_neg h, if_neg h0]

theorem vlineRaw_p (u : U8g) (x y w : Byte) : (vlineRaw u x y w).pb.p = u.pb.p := by
  induction u, y, w using vlineRaw.induct x with
  | case1 u x w h ih => rw [vlineRaw, dif_pos h, ih, draw8Pixel_p]
  | case2 u x w h h0 => rw [vlineRaw, dif_neg h, if_pos h0, draw8Pixel_p]
  | case3 u x w h h0 => rw [vlineRaw, dif_neg h, if_neg h0]

theorem boxRaw_p (u : U8g) (x y w h : Byte) : (boxRaw u x y w h).pb.p = u.pb.p := by
  induction u, y, h using boxRaw.induct x w with
  | case1 u y h h0 => rw [boxRaw]; simp only [dif_pos h0]; exact hlineRaw_p _ _ _ _
  | case2 u y h u' h0 ih =>
    rw [boxRaw]; simp only [dif_neg h0]; exact ih.trans (hlineRaw_p _ _ _ _)

theorem hbitmapLoop_p : ∀ (n : Nat) (u : U8g) (x y : Byte) (bm : Nat → Byte),
    (hbitmapLoop u x y bm n).pb.p = u.pb.p := by
  intro n
  induction n with
  | zero => intros; rfl
  | succ n ih => intro u x y bm; rw [hbitmapLoop, ih, draw8Pixel_p]

theorem bitmapLoop_p : ∀ (n : Nat) (u : U8g) (x y cnt : Byte) (bm : Nat → Byte),
    (bitmapLoop u x y cnt bm n).pb.p = u.pb.p := by
  intro n
  induction n with
  | zero => intros; rfl
  | succ n ih => intro u x y cnt bm; rw [bitmapLoop, ih, hbitmapLoop_p]

theorem dots_p : ∀ (ps : List (Byte × Byte)) (u : U8g),
    (ps.foldl (fun u p => drawPixel u p.1 p.2) u).pb.p = u.pb.p := by
  intro ps
  induction ps with
  | nil => intro u; rfl
  | cons p ps ih => intro u; rw [List.foldl_cons, ih]; exact pbSetPixel_p _ _ _ _

theorem drawVLine_p (u : U8g) (x y h : Byte) : (drawVLine u x y h).pb.p = u.pb.p := by
  unfold drawVLine
  split
  · exact vlineRaw_p _ _ _ _
  · rfl

theorem lines_p : ∀ (ls : List (Byte × Byte × Byte)) (u : U8g),
    (ls.foldl (fun u l => drawVLine u l.1 l.2.1 l.2.2) u).pb.p = u.pb.p := by
  intro ls
  induction ls with
  | nil => intro u; rfl
  | cons l ls ih => intro u; rw [List.foldl_cons, ih]; exact drawVLine_p _ _ _ _

theorem glyphRow_p (dir sx sy : Byte) (mem : Nat → Byte) : ∀ (w : Nat) (u : U8g) (x y : Byte) (p : Nat),
    (glyphRow dir sx sy mem u x y p w).pb.p = u.pb.p := by
  intro w
  induction w with
  | zero => intros; rfl
  | succ n ih => intro u x y p; rw [glyphRow, ih, draw8Pixel_p]

theorem glyphRows_p (dir sx sy rx ry : Byte) (mem : Nat → Byte) (w : Nat) :
    ∀ (h : Nat) (u : U8g) (x y : Byte) (p : Nat),
      (glyphRows dir sx sy rx ry mem w u x y p h).pb.p = u.pb.p := by
  intro h
  induction h with
  | zero => intros; rfl
  | succ n ih => intro u x y p; rw [glyphRows, ih, glyphRow_p]

theorem drawFound_p (dir : Byte) (mem : Nat → Byte) (u : U8g) (x y : Byte) (p : Nat) (g : Glyph) :
    (drawFound dir mem u x y p g).pb.p = u.pb.p := by
  unfold drawFound
  dsimp only
  repeat' split
  all_goals first | rfl | exact glyphRows_p _ _ _ _ _ _ _ _ _ _ _ _

theorem drawGlyph_p (dir : Byte) (mem : Nat → Byte) (u : U8g) (x y c : Byte) :
    (drawGlyph dir mem u x y c).1.pb.p = u.pb.p := by
  unfold drawGlyph
  split
  · rfl
  · exact drawFound_p _ _ _ _ _ _ _

theorem strLoop_p (dir : Byte) (mem : Nat → Byte) : ∀ (s : List Byte) (u : U8g) (x y t : Byte),
    (strLoop dir mem u x y t s).1.pb.p = u.pb.p := by
  intro s
  induction s with
  | nil => intros; rfl
  | cons c s ih => intro u x y t; rw [strLoop, ih, drawGlyph_p]

theorem drawStr_p (dir : Byte) (mem : Nat → Byte) (v : Byte) (u : U8g) (x y : Byte) (s : List Byte) :
    (drawStr dir mem v u x y s).1.pb.p = u.pb.p := by
  unfold drawStr
  repeat' split
  all_goals first | rfl | exact strLoop_p _ _ _ _ _ _ _

theorem hxbmRaw_p (u : U8g) (x y w : Byte) (bm : Nat → Byte) :
    (hxbmRaw u x y w bm).pb.p = u.pb.p := by
  induction u, x, w, bm using hxbmRaw.induct y with
  | case1 u x w bm h ih => rw [hxbmRaw, dif_pos h, ih, draw8Pixel_p]
  | case2 u x w bm h =>
    rw [hxbmRaw, dif_neg h]
    generalize List.range w.toNat = l
    induction l generalizing u with
    | nil => rfl
    | cons i l ih =>
      rw [List.foldl_cons, ih]
      split
      · exact pbSetPixel_p _ _ _ _
      · rfl

theorem xbmLoop_p : ∀ (n : Nat) (u : U8g) (x y w b : Byte) (bm : Nat → Byte),
    (xbmLoop u x y w b bm n).pb.p = u.pb.p := by
  intro n
  induction n with
  | zero => intros; rfl
  | succ n ih => intro u x y w b bm; rw [xbmLoop, ih, hxbmRaw_p]

theorem exec_p (u : U8g) (c : Cmd) : (exec u c).pb.p = u.pb.p := by
  cases c with
  | color i => rfl
  | pixel x y => exact pbSetPixel_p _ _ _ _
  | hline x y w =>
    simp only [exec, drawHLine]; split
    · exact hlineRaw_p _ _ _ _
    · rfl
  | vline x y w =>
    simp only [exec, drawVLine]; split
    · exact vlineRaw_p _ _ _ _
    · rfl
  | frame x y w h =>
    simp only [exec, drawFrame]; split
    · rw [hlineRaw_p, vlineRaw_p, vlineRaw_p, hlineRaw_p]
    · rfl
  | box x y w h =>
    simp only [exec, drawBox]; split
    · exact boxRaw_p _ _ _ _ _
    · rfl
  | bitmap x y cnt h bm =>
    simp only [exec, drawBitmap]; split
    · exact bitmapLoop_p _ _ _ _ _ _
    · rfl
  | dots ps => exact dots_p ps u
  | circle x0 y0 rad opt =>
    simp only [exec, drawCircle]; split
    · exact dots_p _ _
    · rfl
  | disc x0 y0 rad opt =>
    simp only [exec, drawDisc]; split
    · exact lines_p _ _
    · rfl
  | rframe x y w h r =>
    simp only [exec, drawRFrame]; split
    · rw [vlineRaw_p, vlineRaw_p, hlineRaw_p, hlineRaw_p]
      simp only [circleRaw, dots_p]
    · rfl
  | rbox x y w h r =>
    simp only [exec, drawRBox]; split
    · rw [boxRaw_p, boxRaw_p, boxRaw_p]
      simp only [discRaw, lines_p]
    · rfl
  | text mem mode pos dir x y s => exact drawStr_p _ _ _ _ _ _ _
  | xbm x y w h bm =>
    simp only [exec, drawXbm]; split
    · exact xbmLoop_p _ _ _ _ _ _ _
    · rfl

theorem draw_p : ∀ (cs : List Cmd) (u : U8g), (draw u cs).pb.p = u.pb.p := by
  intro cs
  induction cs with
  | nil => intro u; rfl
  | cons c cs ih => intro u; exact (ih (exec u c)).trans (exec_p u c)

/-- Pages of eight rows that begin at a multiple of eight. -/
def Eights (p : Page) : Prop := p.pageHeight = 8 ∧ 249 ≤ p.totalHeight ∧ p.y0 &&& 7 = 0

/-- **C116**, the limit of the height: with more than 248 rows the row counter, which has
eight bits, starts again at 0 behind the last page, and the loop never ends. -/
theorem C116_too_high (u : U8g) (cs : List Cmd) (hph : u.pb.p.pageHeight = 8)
    (hH : 249 ≤ u.pb.p.totalHeight) (n : Nat) :
    pictureLoop cs n (firstPage u) = none := by
  have key : ∀ (y : Byte), y &&& 7 = 0 → y + 8 ≤ 248 ∧ (y + 8) &&& 7 = 0 := by decide +kernel
  have gen : ∀ (n : Nat) (v : U8g), Eights v.pb.p → pictureLoop cs n v = none := by
    intro n
    induction n with
    | zero => intro v _; rfl
    | succ n ih =>
      intro v ⟨e1, e2, e3⟩
      obtain ⟨k1, k2⟩ := key _ e3
      have hp : (draw v cs).pb.p = v.pb.p := draw_p cs v
      have hc : ¬ v.pb.p.totalHeight ≤ v.pb.p.y0 + v.pb.p.pageHeight := by
        rw [e1]; bv_omega
      have hnx : (pageNext (draw v cs).pb.p).2 = true := by
        rw [hp]; unfold pageNext; rw [if_neg hc]
      have hpn : (pageNext (draw v cs).pb.p).1.pageHeight = 8 ∧
          (pageNext (draw v cs).pb.p).1.totalHeight = v.pb.p.totalHeight ∧
          (pageNext (draw v cs).pb.p).1.y0 = v.pb.p.y0 + 8 := by
        rw [hp]; unfold pageNext; rw [if_neg hc]
        exact ⟨e1, rfl, by rw [e1]⟩
      rw [pictureLoop]
      have hn2 : (nextPage (draw v cs)).2 = true := by unfold nextPage; simp [hnx]
      have hn1 : (nextPage (draw v cs)).1.pb.p = (pageNext (draw v cs).pb.p).1 := by
        unfold nextPage; simp [hnx, updateDimension, clear]
      simp only [hn2, if_true]
      refine ih _ ?_
      rw [hn1]
      exact ⟨hpn.1, by rw [hpn.2.1]; exact e2, by rw [hpn.2.2]; exact k2⟩
  exact gen n (firstPage u) ⟨hph, hH, by show (0 : Byte) &&& 7 = 0; decide⟩

/-! ## A case that meets the hypotheses, and what the colour of the pages means -/

/-- A display whose colour is 1 and that is mounted upside down. -/
def demo : U8g :=
  { pb := pcd8544Pb, rot := .rot180, box := ⟨0, 0, 0, 0⟩, color := 1, sent := [] }

/-- A drawing procedure with a box, a hole in it and a frame. -/
def demoDraw : List Cmd :=
  [.color 1, .box 2 3 20 30, .color 0, .pixel 5 6, .color 1, .frame 0 0 84 48]

example : (∀ c ∈ demoDraw, Allowed c) ∧ demo.pb.width.toNat = 84 ∧
    demo.pb.p.totalHeight.toNat = 48 := by
  refine ⟨?_, rfl, rfl⟩
  intro c hc
  simp only [demoDraw, List.mem_cons, List.not_mem_nil, or_false] at hc
  rcases hc with rfl | rfl | rfl | rfl | rfl | rfl <;> simp [Allowed]

/-- The picture is not the same everywhere: the hole is dark, the box around it lit. -/
example : expected demoDraw 1 .rot180 84 48 78 41 = false ∧
    expected demoDraw 1 .rot180 84 48 77 41 = true := by
  have sp : ∀ s w p : Byte, Span s w p ↔ p - s < w := span_iff
  constructor <;>
    simp [expected, userPoint, picture, demoDraw, look, Covers, sp]

/-- **C116**, a finding: a drawing procedure that draws before it chooses a colour does not
draw one picture. With 0 as the last colour chosen, a box over the whole display appears
in the first eight rows only. -/
theorem C116_colour_left_over (u : U8g) (hW : u.pb.width = 84) (hph : u.pb.p.pageHeight = 8)
    (hH : u.pb.p.totalHeight = 48) (hc : u.color = 1) (hr : u.rot = .none) (l : Lcd) :
    ∃ u' out, pictureLoop [.box 0 0 84 48, .color 0] 6 (firstPage u) = some u' ∧
      u'.sent = u.sent ++ out ∧
      ∀ X Y, X < 84 → Y < 48 →
        ((lcdRun l out).ram (Y / 8) X).getLsbD (Y % 8) = decide (Y < 8) := by
  obtain ⟨u', out, h1, h2, h3⟩ := C116_pcd8544 u l [.box 0 0 84 48, .color 0] hW hph hH (by
    intro c hc
    simp only [List.mem_cons, List.not_mem_nil, or_false] at hc
    rcases hc with rfl | rfl <;> simp [Allowed])
  refine ⟨u', out, h1, h2, fun X Y hX hY => ?_⟩
  rw [h3 X Y hX hY, hc, hr]
  have hcov : Covers (.box 0 0 84 48) (BitVec.ofNat 8 X) (BitVec.ofNat 8 Y) :=
    ⟨⟨X, hX, by simp⟩, ⟨Y, hY, by simp⟩⟩
  by_cases hy : Y < 8
  · simpa [expected, userPoint, picture, look, hy] using hcov
  · simp [expected, userPoint, picture, look, hy, lastColor]

end Verif.U8g
