import Verif.U8g.Props118

/-!
# C121: XBM bitmaps

An XBM bitmap has its leftmost point in the lowest bit and rows of whole bytes. The property
says that each bit is seen where it belongs, also when the width is not a multiple of
eight, and that nothing is drawn for the bits that fill up a row.
-/

namespace Verif.U8g

/-- **C121**, partial: the bitmap is at most 248 columns wide. Lit are exactly the points whose
bit is set, on a display of any width and 8 to 248 rows, mounted in any of the four ways. -/
theorem C121_bitmap_partial (u : U8g) (x y w h : Byte) (bm : Nat → Byte) {W H : Nat}
    (hW : u.pb.width.toNat = W) (hW0 : 0 < W) (hph : u.pb.p.pageHeight = 8)
    (hH : u.pb.p.totalHeight.toNat = H) (h8 : 8 ≤ H) (hmax : H ≤ 248) (hw : w ≤ 248) :
    ∃ u' out, pictureLoop [.color 1, .xbm x y w h bm] ((H + 7) / 8) (firstPage u) = some u' ∧
      u'.sent = u.sent ++ out ∧ out.length = (H + 7) / 8 ∧
      ∀ X Y, X < W → Y < H → ∃ e, out[Y / 8]? = some e ∧
        ((e.2.getD X 0).getLsbD (Y % 8) = true ↔
          ∃ i r, i < w.toNat ∧ r < h.toNat ∧
            BitVec.ofNat 8 (userPoint u.rot W H X Y).1 = x + BitVec.ofNat 8 i ∧
            BitVec.ofNat 8 (userPoint u.rot W H X Y).2 = y + BitVec.ofNat 8 r ∧
            (bm (r * ((w.toNat + 7) / 8) + i / 8)).getLsbD (i % 8) = true) :=
  pages_point u (.xbm x y w h bm) (fun _ h => by cases h) hW hW0 hph hH h8 hmax hw

/-- **C121**, a finding: the bytes of a row are counted in eight bits. For a bitmap of 249 to 255
columns the count is zero, and every row is drawn like the first one: whatever the bytes behind
the first 32 are, the result is the same. -/
theorem C121_wide (u : U8g) (x y w h : Byte) (hw : 248 < w) (bm bm' : Nat → Byte)
    (he : ∀ i, i < 32 → bm i = bm' i) : drawXbm u x y w h bm = drawXbm u x y w h bm' := by
  have hz : (w + 7) >>> 3 = 0 := by
    have : ∀ w : Byte, 248 < w → (w + 7) >>> 3 = 0 := by decide +kernel
    exact this w hw
  have row : ∀ (n : Nat) (u : U8g) (x y w : Byte) (bm bm' : Nat → Byte), w.toNat < 8 * n →
      (∀ i, i < n → bm i = bm' i) → hxbmRaw u x y w bm = hxbmRaw u x y w bm' := by
    intro n
    induction n with
    | zero => intro u x y w bm bm' h; omega
    | succ n ih =>
      intro u x y w bm bm' hn hb
      conv => lhs; rw [hxbmRaw]
      conv => rhs; rw [hxbmRaw]
      rw [hb 0 (by omega)]
      by_cases h8 : 8 ≤ w
      · rw [dif_pos h8, dif_pos h8]
        have h8' : 8 ≤ w.toNat := h8
        have e : (w - 8).toNat = w.toNat - 8 := by
          rw [BitVec.toNat_sub]; have := w.isLt; simp; omega
        exact ih _ _ _ _ _ _ (by omega) fun i hi => hb (i + 1) (by omega)
      · rw [dif_neg h8, dif_neg h8]
  have loop : ∀ (n : Nat) (u : U8g) (y : Byte), xbmLoop u x y w 0 bm n = xbmLoop u x y w 0 bm' n := by
    intro n
    induction n with
    | zero => intros; rfl
    | succ n ih =>
      intro u y
      have hw' := w.isLt
      rw [xbmLoop, xbmLoop, row 32 u x y w bm bm' (by omega) he]
      exact ih _ _
  unfold drawXbm
  rw [hz]
  by_cases hi : isBBXIntersection u x y w h = true
  · rw [if_pos hi, if_pos hi, loop]
  · rw [if_neg hi, if_neg hi]

/-- A bitmap of 9 by 2 points: the ninth bit of the first row is in the lowest bit of the second
byte, and the second row begins with the third byte. -/
example : Covers (.xbm 10 20 9 2 (fun i => [0x01, 0x01, 0x80, 0x00].getD i 0)) 18 20 ∧
    Covers (.xbm 10 20 9 2 (fun i => [0x01, 0x01, 0x80, 0x00].getD i 0)) 17 21 ∧
    Allowed (.xbm 10 20 9 2 (fun i => [0x01, 0x01, 0x80, 0x00].getD i 0)) := by
  refine ⟨⟨8, 0, ?_⟩, ⟨7, 1, ?_⟩, ?_⟩
  · decide
  · decide
  · show (9 : Byte) ≤ 248
    decide

end Verif.U8g
