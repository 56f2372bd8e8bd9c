import Verif.U8g.Props118

/-!
# C119: frames and boxes with rounded corners

The library draws four quarters of a circle or of a disc and fills the rest with lines or
boxes. The property says that together they are the rounded rectangle, without gaps and
without points outside, provided the rectangle has room for its corners.
-/

namespace Verif.U8g

/-- **C119**, partial: the radius is at most 76 and the sides have room for two corners and two
points between them. Lit are exactly the border of the rectangle between the corners and the
quarters of the circle in the corners. -/
theorem C119_frame_partial (u : U8g) (x y w h r : Byte) {W H : Nat}
    (hW : u.pb.width.toNat = W) (hW0 : 0 < W) (hph : u.pb.p.pageHeight = 8)
    (hH : u.pb.p.totalHeight.toNat = H) (h8 : 8 ≤ H) (hmax : H ≤ 248) (hr : r ≤ 76)
    (hw : 2 * r.toNat + 2 ≤ w.toNat) (hh : 2 * r.toNat + 2 ≤ h.toNat) :
    ∃ u' out, pictureLoop [.color 1, .rframe x y w h r] ((H + 7) / 8) (firstPage u) = some u' ∧
      u'.sent = u.sent ++ out ∧ out.length = (H + 7) / 8 ∧
      ∀ X Y, X < W → Y < H → ∃ e, out[Y / 8]? = some e ∧
        ((e.2.getD X 0).getLsbD (Y % 8) = true ↔
          ∃ i j, i < w.toNat ∧ j < h.toNat ∧
            BitVec.ofNat 8 (userPoint u.rot W H X Y).1 = x + BitVec.ofNat 8 i ∧
            BitVec.ofNat 8 (userPoint u.rot W H X Y).2 = y + BitVec.ofNat 8 j ∧
            OnRFrame w.toNat h.toNat r.toNat i j) :=
  pages_point u (.rframe x y w h r) (fun _ h => by cases h) hW hW0 hph hH h8 hmax ⟨hr, hw, hh⟩

/-- **C119**, partial: the radius is at most 76, the width has room for two corners and two points,
the height for two corners and three points. Lit are exactly the points of the rectangle
except those outside the quarters of a disc in the corners. -/
theorem C119_box_partial (u : U8g) (x y w h r : Byte) {W H : Nat}
    (hW : u.pb.width.toNat = W) (hW0 : 0 < W) (hph : u.pb.p.pageHeight = 8)
    (hH : u.pb.p.totalHeight.toNat = H) (h8 : 8 ≤ H) (hmax : H ≤ 248) (hr : r ≤ 76)
    (hw : 2 * r.toNat + 2 ≤ w.toNat) (hh : 2 * r.toNat + 3 ≤ h.toNat) :
    ∃ u' out, pictureLoop [.color 1, .rbox x y w h r] ((H + 7) / 8) (firstPage u) = some u' ∧
      u'.sent = u.sent ++ out ∧ out.length = (H + 7) / 8 ∧
      ∀ X Y, X < W → Y < H → ∃ e, out[Y / 8]? = some e ∧
        ((e.2.getD X 0).getLsbD (Y % 8) = true ↔
          ∃ i j, i < w.toNat ∧ j < h.toNat ∧
            BitVec.ofNat 8 (userPoint u.rot W H X Y).1 = x + BitVec.ofNat 8 i ∧
            BitVec.ofNat 8 (userPoint u.rot W H X Y).2 = y + BitVec.ofNat 8 j ∧
            InRBox w.toNat h.toNat r.toNat i j) :=
  pages_point u (.rbox x y w h r) (fun _ h => by cases h) hW hW0 hph hH h8 hmax ⟨hr, hw, hh⟩

/-- **C119**: without rounding, the figures are the plain frame and the plain box. -/
theorem C119_radius_zero {w h i j : Nat} (hi : i < w) (hj : j < h) :
    (OnRFrame w h 0 i j ↔ i = 0 ∨ i = w - 1 ∨ j = 0 ∨ j = h - 1) ∧ InRBox w h 0 i j := by
  have h1 : inCorner w 0 i = 0 := by unfold inCorner; rw [if_neg (by omega), if_neg (by omega)]
  have h2 : inCorner h 0 j = 0 := by unfold inCorner; rw [if_neg (by omega), if_neg (by omega)]
  unfold OnRFrame InRBox
  rw [h1, h2]
  exact ⟨by simp, (inDisc_axis 0 0).2 (Nat.le_refl 0)⟩

/-- **C119**: the frame is symmetric, and all of it lies on the box with the same corners. -/
theorem C119_frame_on_box {w h r i j : Nat} (hw : 2 * r + 2 ≤ w) (hh : 2 * r + 2 ≤ h)
    (hi : i < w) (hj : j < h) :
    (OnRFrame w h r i j → InRBox w h r i j) ∧
    (OnRFrame w h r i j ↔ OnRFrame w h r (w - 1 - i) j) ∧
    (OnRFrame w h r i j ↔ OnRFrame w h r i (h - 1 - j)) := by
  have mirror : ∀ {n k : Nat}, 2 * r + 2 ≤ n → k < n →
      inCorner n r (n - 1 - k) = - inCorner n r k := by
    intro n k hn hk
    rcases corner_cases hn hk with ⟨a1, a2⟩ | ⟨a1, a1', a2⟩ | ⟨a1, a2⟩
    · rw [corner_high hn (by omega), a2]; omega
    · rw [corner_mid (by omega) (by omega), a2]; rfl
    · rw [corner_low (by omega), a2]; omega
  refine ⟨?_, ?_, ?_⟩
  · intro hf
    unfold InRBox
    by_cases hc : inCorner w r i ≠ 0 ∧ inCorner h r j ≠ 0
    · unfold OnRFrame at hf
      rw [if_pos hc] at hf
      exact (C118_disc_is_filled_circle r _ _).2 ⟨_, Nat.le_refl _, hf⟩
    · have b1 : (inCorner w r i).natAbs ≤ r := by
        rcases corner_cases hw hi with ⟨a1, a2⟩ | ⟨a1, a1', a2⟩ | ⟨a1, a2⟩ <;> omega
      have b2 : (inCorner h r j).natAbs ≤ r := by
        rcases corner_cases hh hj with ⟨a1, a2⟩ | ⟨a1, a1', a2⟩ | ⟨a1, a2⟩ <;> omega
      by_cases h0 : inCorner w r i = 0
      · rw [h0]; exact (inDisc_axis r _).2 b2
      · have h1 : inCorner h r j = 0 := by
          by_contra hne; exact hc ⟨h0, hne⟩
        rw [h1]; exact inDisc_swap.1 ((inDisc_axis r _).2 b1)
  · unfold OnRFrame
    rw [mirror hw hi]
    by_cases hc : inCorner w r i ≠ 0 ∧ inCorner h r j ≠ 0
    · rw [if_pos hc, if_pos ⟨by omega, hc.2⟩]
      exact ⟨(round_circle r).sign (by omega) rfl, (round_circle r).sign (by omega) rfl⟩
    · rw [if_neg hc, if_neg (by omega)]
      omega
  · unfold OnRFrame
    rw [mirror hh hj]
    by_cases hc : inCorner w r i ≠ 0 ∧ inCorner h r j ≠ 0
    · rw [if_pos hc, if_pos ⟨hc.1, by omega⟩]
      exact ⟨(round_circle r).sign rfl (by omega), (round_circle r).sign rfl (by omega)⟩
    · rw [if_neg hc, if_neg (by omega)]
      omega

/-- A box of no rows is drawn over all rows. -/
theorem draws_boxRaw_zero {u} (hu : Ready u) (x y w : Byte) :
    Draws u (boxRaw u x y w 0) (fun x' _ => x' - x < w) := by
  have e : boxRaw u x y w 0 = boxRaw (hlineRaw u x y w) x (y + 1) w 255 := by
    conv => lhs; rw [boxRaw]
    rw [dif_neg (by decide)]
    rfl
  rw [e]
  have d1 := draws_hline hu x y w
  refine (d1.trans (draws_boxRaw (d1.ready hu) x (y + 1) w 255 (by decide))).congr
    fun px py _ => ?_
  have hy : py = y ∨ py - (y + 1) < 255 := by
    by_cases h : py = y
    · exact Or.inl h
    · right; bv_omega
  constructor
  · rintro (h | h)
    · exact h.2
    · exact h.1
  · intro h
    rcases hy with e | e
    · exact Or.inl ⟨e, h⟩
    · exact Or.inr ⟨h, e⟩

/-- **C119**, a finding: a rounded box whose height is exactly twice the radius and two is
not drawn as a box. In each group of rows that the box meets, all rows are filled over its
whole width, also above and below the box. -/
theorem C119_band (u : U8g) (x y w h r : Byte) (hu : Ready u) (hr : r ≤ 76)
    (hh : h.toNat = 2 * r.toNat + 2) (hi : isBBXIntersection u x y w h = true)
    (px py : Byte) (ho : OnPage u.rot u.pb px py) (hx : Span x w px) :
    shown u.rot (exec u (.rbox x y w h r)).pb px py = decide (u.color ≠ 0) := by
  have h76 : r.toNat ≤ 76 := hr
  have hx' := (span_iff x w px).1 hx
  have hz : h - r - r - 2 = 0 := by
    have two : (2 : Byte).toNat = 2 := rfl
    have k1 : (h - r).toNat = h.toNat - r.toNat := sub_toNat (by omega)
    have k2 : (h - r - r).toNat = h.toNat - r.toNat - r.toNat := by
      rw [sub_toNat (by omega), k1]
    apply BitVec.eq_of_toNat_eq
    rw [sub_toNat (by omega), k2, two]
    show _ = 0
    omega
  show shown u.rot (drawRBox u x y w h r).pb px py = _
  unfold drawRBox
  rw [if_pos hi]
  have hr1 : r + 1 ≠ 0 := by bv_omega
  have d1 := draws_discRaw hu (x + r) (y + r) r 0x02 hr
  have r1 := d1.ready hu
  have d2 := d1.trans (draws_discRaw r1 (x + w - r - 1) (y + r) r 0x01 hr)
  have r2 := d2.ready hu
  have d3 := d2.trans (draws_discRaw r2 (x + r) (y + h - r - 1) r 0x04 hr)
  have r3 := d3.ready hu
  have d4 := d3.trans (draws_discRaw r3 (x + w - r - 1) (y + h - r - 1) r 0x08 hr)
  have r4 := d4.ready hu
  have d5 := d4.trans (draws_boxRaw r4 (x + r + 1) y (w - r - r - 2) (r + 1) hr1)
  have r5 := d5.ready hu
  have d6 := d5.trans (draws_boxRaw r5 (x + r + 1) (y + h - r - 1) (w - r - r - 2) (r + 1) hr1)
  have r6 := d6.ready hu
  have d7 := d6.trans (draws_boxRaw_zero r6 x (y + r + 1) w)
  rw [hz]
  have := d7.2.on px py ho
  rw [this, if_pos (Or.inr hx')]

/-- Points of the rounded frame and box of 10 by 9 points with radius 3: the corner is off both,
the quarter of the circle is on the frame, the middle is only on the box. -/
example : ¬ InRBox 10 9 3 0 0 ∧ OnRFrame 10 9 3 1 1 ∧ OnRFrame 10 9 3 4 0 ∧
    ¬ OnRFrame 10 9 3 4 4 ∧ InRBox 10 9 3 4 4 := by
  refine ⟨?_, ?_, ?_, ?_, ?_⟩ <;> simp [InRBox, OnRFrame, inCorner, OnCircle, InDisc]

/-- The second page of a display. -/
def demoBand : U8g :=
  { pb := { pcd8544Pb with p := { pcd8544Pb.p with y0 := 8, y1 := 15, page := 1 } }
    rot := .none
    box := ⟨0, 8, 83, 15⟩
    color := 1
    sent := [] }

/-- The hypotheses of the band can be met: a box of 8 by 8 points. -/
example : Ready demoBand ∧ isBBXIntersection demoBand 10 10 8 8 = true ∧
    OnPage demoBand.rot demoBand.pb 12 8 ∧ Span 10 8 12 ∧ ¬ Span 10 8 8 ∧ demoBand.color ≠ 0 := by
  refine ⟨⟨⟨?_, ?_, ?_, ?_⟩, ?_⟩, ?_, ?_, ?_, ?_, ?_⟩
  all_goals first | rfl | decide | (unfold OnPage; decide) | (rw [span_iff]; decide)

end Verif.U8g
