import Verif.U8g.Paint

/-!
# Lines, boxes, frames and bitmaps

Helper lemmas: the points that the drawing functions of the user set.
-/

namespace Verif.U8g

/-- `u'` is `u` after the points of `S` were drawn in the current colour. -/
def Draws (u u' : U8g) (S : Byte → Byte → Prop) : Prop :=
  u' = { u with pb := u'.pb } ∧ Paints u.rot u.color u.pb u'.pb S

/-- The state in which a drawing procedure runs. -/
structure Ready (u : U8g) : Prop where
  page : PageOk u.pb
  box : u.box = pageBox u.rot u.pb

theorem pageBox_congr {r b b'} (hp : b'.p = b.p) (hw : b'.width = b.width) :
    pageBox r b' = pageBox r b := by
  unfold pageBox pbPageBox
  rw [hp, hw]

theorem Draws.ready {u u' S} (h : Draws u u' S) (hr : Ready u) : Ready u' := by
  obtain ⟨h1, h2⟩ := h
  refine ⟨pageOk_congr h2.p h2.width hr.page, ?_⟩
  have hb : u'.box = u.box := by rw [h1]
  have hr' : u'.rot = u.rot := by rw [h1]
  rw [hb, hr', hr.box, pageBox_congr h2.p h2.width]

theorem Draws.refl (u) {S : Byte → Byte → Prop}
    (h : ∀ x y, OnPage u.rot u.pb x y → ¬ S x y) : Draws u u S :=
  ⟨rfl, Paints.refl _ _ _ h⟩

theorem Draws.trans {u u' u'' S T} (h1 : Draws u u' S) (h2 : Draws u' u'' T) :
    Draws u u'' (fun x y => S x y ∨ T x y) := by
  obtain ⟨a1, b1⟩ := h1
  obtain ⟨a2, b2⟩ := h2
  have hr : u'.rot = u.rot := by rw [a1]
  have hc : u'.color = u.color := by rw [a1]
  rw [hr, hc] at b2
  refine ⟨?_, b1.trans b2⟩
  rw [a2, a1]

theorem Draws.congr {u u' S T} (h : Draws u u' S)
    (e : ∀ x y, OnPage u.rot u.pb x y → (S x y ↔ T x y)) : Draws u u' T :=
  ⟨h.1, h.2.congr e⟩

theorem draws_pixel {u} (hu : Ready u) (x y : Byte) :
    Draws u (drawPixel u x y) (fun x' y' => x' = x ∧ y' = y) :=
  ⟨rfl, paints_pixel hu.page u.rot u.color x y⟩

theorem row_rotY {r b} {dir : Byte} (hd : IsDir dir) :
    ∀ (i : Nat) (x y : Byte),
      rotY r b (x + BitVec.ofNat 8 i * stepX dir) (y + BitVec.ofNat 8 i * stepY dir)
        = rotY r b x y + BitVec.ofNat 8 i * stepY (rotDir r dir) := by
  intro i
  induction i with
  | zero => intro x y; simp
  | succ i ih =>
    intro x y
    rw [ofNat_succ_mul, ofNat_succ_mul, ofNat_succ_mul, ← BitVec.add_assoc, ← BitVec.add_assoc,
      ih, ← rotY_step hd, BitVec.add_assoc]

theorem not_visible {b : Pb} {y d : Byte} (hd : IsDir d) (h : is8PixelVisible b y d = false)
    (i : Nat) (hi : i < 8) :
    ¬ (b.p.y0 ≤ y + BitVec.ofNat 8 i * stepY d ∧ y + BitVec.ofNat 8 i * stepY d ≤ b.p.y1) := by
  have hlt : (BitVec.ofNat 8 i : Byte) < 8 := by
    rw [BitVec.lt_def, BitVec.toNat_ofNat]
    have : (8 : Byte).toNat = 8 := rfl
    omega
  generalize (BitVec.ofNat 8 i : Byte) = k at hlt
  unfold is8PixelVisible isYIntersection at h
  rcases hd with rfl | rfl | rfl | rfl
  · have e : y + k * stepY 0 = y := by simp [stepY]
    rw [e]
    simp only [Bool.or_eq_false_iff, Bool.and_eq_false_iff, decide_eq_false_iff_not] at h
    simp at h
    bv_omega
  · have e : y + k * stepY 1 = y + k := by simp [stepY]
    rw [e]
    simp only [Bool.or_eq_false_iff, Bool.and_eq_false_iff, decide_eq_false_iff_not] at h
    simp at h
    bv_omega
  · have e : y + k * stepY 2 = y := by simp [stepY]
    rw [e]
    simp only [Bool.or_eq_false_iff, Bool.and_eq_false_iff, decide_eq_false_iff_not] at h
    simp at h
    bv_omega
  · have e : y + k * stepY 3 = y - k := by
      have : ∀ k : Byte, k * stepY 3 = - k := by decide +kernel
      rw [this]; bv_omega
    rw [e]
    simp only [Bool.or_eq_false_iff, Bool.and_eq_false_iff, decide_eq_false_iff_not] at h
    simp at h
    bv_omega

theorem rotDir_isDir {r : Rot} {dir : Byte} (hd : IsDir dir) : IsDir (rotDir r dir) := by
  cases r <;> rcases hd with rfl | rfl | rfl | rfl <;> simp [rotDir, IsDir]

theorem draws_8pixel {u} (hu : Ready u) {dir : Byte} (hd : IsDir dir) (x y pixel : Byte) :
    Draws u (draw8Pixel u x y dir pixel) (Row 8 x y dir pixel) := by
  unfold draw8Pixel
  by_cases hv : is8PixelVisible u.pb (rotY u.rot u.pb x y) (rotDir u.rot dir) = true
  · rw [if_pos hv]
    exact ⟨rfl, paints_set8Loop hd 8 u.pb x y pixel hu.page⟩
  · rw [if_neg hv]
    refine Draws.refl u ?_
    rintro x' y' ⟨_, ho⟩ ⟨i, _, hi, _, rfl, rfl⟩
    rw [row_rotY hd] at ho
    exact not_visible (rotDir_isDir hd) (by simpa using hv) i hi ho

theorem row_full_x (x y x' y' : Byte) :
    Row 8 x y 0 0xff x' y' ↔ (y' = y ∧ x' - x < 8) := by
  constructor
  · rintro ⟨i, hi, _, _, rfl, rfl⟩
    refine ⟨by simp [stepY], ?_⟩
    have hlt : (BitVec.ofNat 8 i : Byte) < 8 := by
      rw [BitVec.lt_def, BitVec.toNat_ofNat]
      have : (8 : Byte).toNat = 8 := rfl
      omega
    have e : x + BitVec.ofNat 8 i * stepX 0 - x = BitVec.ofNat 8 i := by
      simp [stepX]
      rw [BitVec.add_comm, BitVec.add_sub_cancel]
    rw [e]; exact hlt
  · rintro ⟨rfl, h⟩
    have hlt : (x' - x).toNat < 8 := h
    refine ⟨(x' - x).toNat, hlt, hlt, ?_, ?_, ?_⟩
    · have : ∀ k : Nat, k < 8 → BitVec.getLsbD (0xff : Byte) (7 - k) = true := by decide +kernel
      exact this _ hlt
    · simp [stepX]
      bv_omega
    · simp [stepY]

theorem row_part_x (x y w x' y' : Byte) (hw : w < 8) (h0 : w ≠ 0) :
    Row 8 x y 0 ((0xff : Byte) <<< (((w ^^^ 7) + 1) &&& 7).toNat) x' y'
      ↔ (y' = y ∧ x' - x < w) := by
  have key : ∀ w : Byte, w < 8 → w ≠ 0 → ∀ k : Byte, k < 8 →
      (((0xff : Byte) <<< (((w ^^^ 7) + 1) &&& 7).toNat).getLsbD (7 - k.toNat) = true ↔ k < w) := by
    decide +kernel
  constructor
  · rintro ⟨i, hi, _, hb, rfl, rfl⟩
    refine ⟨by simp [stepY], ?_⟩
    have hn : (BitVec.ofNat 8 i : Byte).toNat = i := by
      rw [BitVec.toNat_ofNat]; omega
    have hlt : (BitVec.ofNat 8 i : Byte) < 8 := by
      rw [BitVec.lt_def, hn]; exact hi
    have e : x + BitVec.ofNat 8 i * stepX 0 - x = BitVec.ofNat 8 i := by
      simp [stepX]
      rw [BitVec.add_comm, BitVec.add_sub_cancel]
    rw [e]
    refine (key w hw h0 _ hlt).1 ?_
    rw [hn]; exact hb
  · rintro ⟨rfl, h⟩
    have hlt : x' - x < 8 := by bv_omega
    refine ⟨(x' - x).toNat, hlt, hlt, (key w hw h0 _ hlt).2 h, ?_, ?_⟩
    · simp [stepX]
      bv_omega
    · simp [stepY]

theorem row_swap (x y pixel x' y' : Byte) :
    Row 8 x y 1 pixel x' y' ↔ Row 8 y x 0 pixel y' x' := by
  constructor
  · rintro ⟨i, h1, h2, h3, h4, h5⟩
    exact ⟨i, h1, h2, h3, by rw [h5]; rfl, by rw [h4]; rfl⟩
  · rintro ⟨i, h1, h2, h3, h4, h5⟩
    exact ⟨i, h1, h2, h3, by rw [h5]; rfl, by rw [h4]; rfl⟩

theorem draws_hline {u} (hu : Ready u) (x y w : Byte) :
    Draws u (hlineRaw u x y w) (fun x' y' => y' = y ∧ x' - x < w) := by
  induction u, x, w using hlineRaw.induct y with
  | case1 u x w h ih =>
    rw [hlineRaw, dif_pos h]
    have h1 := draws_8pixel hu (dir := 0) (Or.inl rfl) x y 0xff
    refine (h1.trans (ih (h1.ready hu))).congr fun x' y' _ => ?_
    rw [row_full_x]
    constructor
    · rintro (⟨a, b⟩ | ⟨a, b⟩)
      · exact ⟨a, by bv_omega⟩
      · exact ⟨a, by bv_omega⟩
    · rintro ⟨a, b⟩
      by_cases hc : x' - x < 8
      · exact Or.inl ⟨a, hc⟩
      · exact Or.inr ⟨a, by bv_omega⟩
  | case2 u x w h h0 =>
    rw [hlineRaw, dif_neg h, if_pos h0]
    refine (draws_8pixel hu (dir := 0) (Or.inl rfl) x y _).congr fun x' y' _ => ?_
    exact row_part_x x y w x' y' (by bv_omega) h0
  | case3 u x w h h0 =>
    rw [hlineRaw, dif_neg h, if_neg h0]
    refine Draws.refl u ?_
    rintro x' y' _ ⟨_, h'⟩
    bv_omega

theorem draws_vline {u} (hu : Ready u) (x y h : Byte) :
    Draws u (vlineRaw u x y h) (fun x' y' => x' = x ∧ y' - y < h) := by
  induction u, y, h using vlineRaw.induct x with
  | case1 u y w h ih =>
    rw [vlineRaw, dif_pos h]
    have h1 := draws_8pixel hu (dir := 1) (Or.inr (Or.inl rfl)) x y 0xff
    refine (h1.trans (ih (h1.ready hu))).congr fun x' y' _ => ?_
    rw [row_swap, row_full_x]
    constructor
    · rintro (⟨a, b⟩ | ⟨a, b⟩)
      · exact ⟨a, by bv_omega⟩
      · exact ⟨a, by bv_omega⟩
    · rintro ⟨a, b⟩
      by_cases hc : y' - y < 8
      · exact Or.inl ⟨a, hc⟩
      · exact Or.inr ⟨a, by bv_omega⟩
  | case2 u y w h h0 =>
    rw [vlineRaw, dif_neg h, if_pos h0]
    refine (draws_8pixel hu (dir := 1) (Or.inr (Or.inl rfl)) x y _).congr fun x' y' _ => ?_
    rw [row_swap]
    exact row_part_x y x w y' x' (by bv_omega) h0
  | case3 u y w h h0 =>
    rw [vlineRaw, dif_neg h, if_neg h0]
    refine Draws.refl u ?_
    rintro x' y' _ ⟨_, h'⟩
    bv_omega

theorem onPage_box {r b} (hb : PageOk b) {x y : Byte} (ho : OnPage r b x y) :
    (pageBox r b).x0 ≤ x ∧ x ≤ (pageBox r b).x1 ∧
      (pageBox r b).y0 ≤ y ∧ y ≤ (pageBox r b).y1 := by
  have hw := hb.width; have h1 := hb.order; have h2 := hb.rows; have h3 := hb.height
  obtain ⟨a, c, d⟩ := ho
  cases r <;> simp only [rotX, rotY] at a c d <;> simp only [pageBox, pbPageBox] <;>
    refine ⟨?_, ?_, ?_, ?_⟩ <;> bv_omega

theorem interval_clip {a0 a1 v w p : Byte} (hw : w ≠ 0)
    (h : isIntersection a0 a1 v (v + w - 1) = false) (h0 : a0 ≤ p) (h1 : p ≤ a1) :
    ¬ (p - v < w) := by
  unfold isIntersection at h
  by_cases c1 : v ≤ a1
  · rw [if_pos c1] at h
    by_cases c2 : a0 ≤ v + w - 1
    · rw [if_pos c2] at h; cases h
    · rw [if_neg c2] at h
      have := of_decide_eq_false h
      bv_omega
  · rw [if_neg c1] at h
    by_cases c2 : a0 ≤ v + w - 1
    · rw [if_pos c2] at h
      have := of_decide_eq_false h
      bv_omega
    · bv_omega

theorem clip {u} (hu : Ready u) {x y w h : Byte} (hw : w ≠ 0) (hh : h ≠ 0)
    (hi : isBBXIntersection u x y w h = false) {x' y' : Byte}
    (ho : OnPage u.rot u.pb x' y') : ¬ (x' - x < w ∧ y' - y < h) := by
  have hbx := onPage_box hu.page ho
  rw [← hu.box] at hbx
  obtain ⟨b1, b2, b3, b4⟩ := hbx
  unfold isBBXIntersection at hi
  rintro ⟨a, b⟩
  by_cases c : isIntersection u.box.y0 u.box.y1 y (y + h - 1) = true
  · rw [if_pos c] at hi
    exact interval_clip hw hi b1 b2 a
  · exact interval_clip hh (by simpa using c) b3 b4 b

theorem draws_drawHLine {u} (hu : Ready u) (x y w : Byte) :
    Draws u (drawHLine u x y w) (fun x' y' => y' = y ∧ x' - x < w) := by
  unfold drawHLine
  by_cases hi : isBBXIntersection u x y w 1 = true
  · rw [if_pos hi]; exact draws_hline hu x y w
  · rw [if_neg hi]
    refine Draws.refl u ?_
    rintro x' y' ho ⟨rfl, h⟩
    refine clip hu (w := w) (h := 1) (by bv_omega) (by decide) (by simpa using hi) ho ⟨h, ?_⟩
    bv_omega

theorem draws_drawVLine {u} (hu : Ready u) (x y h : Byte) :
    Draws u (drawVLine u x y h) (fun x' y' => x' = x ∧ y' - y < h) := by
  unfold drawVLine
  by_cases hi : isBBXIntersection u x y 1 h = true
  · rw [if_pos hi]; exact draws_vline hu x y h
  · rw [if_neg hi]
    refine Draws.refl u ?_
    rintro x' y' ho ⟨rfl, h'⟩
    refine clip hu (w := 1) (h := h) (by decide) (by bv_omega) (by simpa using hi) ho ⟨?_, h'⟩
    bv_omega

theorem draws_frame {u} (hu : Ready u) (x y w h : Byte) (hw : w ≠ 0) (hh : h ≠ 0) :
    Draws u (drawFrame u x y w h)
      (fun x' y' => x' - x < w ∧ y' - y < h ∧
        (x' = x ∨ x' = x + w - 1 ∨ y' = y ∨ y' = y + h - 1)) := by
  unfold drawFrame
  by_cases hi : isBBXIntersection u x y w h = true
  · rw [if_pos hi]
    have d1 := draws_hline hu x y w
    have d2 := d1.trans (draws_vline (d1.ready hu) x y h)
    have d3 := d2.trans (draws_vline (d2.ready hu) (x + w - 1) y h)
    have d4 := d3.trans (draws_hline (d3.ready hu) x (y + h - 1) w)
    refine d4.congr fun x' y' _ => ?_
    constructor
    · rintro (((⟨a, b⟩ | ⟨a, b⟩) | ⟨a, b⟩) | ⟨a, b⟩)
      · exact ⟨b, by bv_omega, Or.inr (Or.inr (Or.inl a))⟩
      · exact ⟨by bv_omega, b, Or.inl a⟩
      · exact ⟨by bv_omega, b, Or.inr (Or.inl a)⟩
      · exact ⟨b, by bv_omega, Or.inr (Or.inr (Or.inr a))⟩
    · rintro ⟨a, b, (c | c | c | c)⟩
      · exact Or.inl (Or.inl (Or.inr ⟨c, b⟩))
      · exact Or.inl (Or.inr ⟨c, b⟩)
      · exact Or.inl (Or.inl (Or.inl ⟨c, a⟩))
      · exact Or.inr ⟨c, a⟩
  · rw [if_neg hi]
    refine Draws.refl u ?_
    rintro x' y' ho ⟨a, b, _⟩
    exact clip hu hw hh (by simpa using hi) ho ⟨a, b⟩

theorem draws_boxRaw {u} (hu : Ready u) (x y w h : Byte) (hh : h ≠ 0) :
    Draws u (boxRaw u x y w h) (fun x' y' => x' - x < w ∧ y' - y < h) := by
  induction u, y, h using boxRaw.induct x w with
  | case1 u y h h1 =>
    rw [boxRaw, dif_pos h1]
    refine (draws_hline hu x y w).congr fun x' y' _ => ?_
    constructor
    · rintro ⟨a, b⟩; exact ⟨b, by bv_omega⟩
    · rintro ⟨a, b⟩; exact ⟨by bv_omega, a⟩
  | case2 u y h _ h1 ih =>
    rw [boxRaw, dif_neg h1]
    have d1 := draws_hline hu x y w
    refine (d1.trans (ih (d1.ready hu) h1)).congr fun x' y' _ => ?_
    constructor
    · rintro (⟨a, b⟩ | ⟨a, b⟩)
      · exact ⟨b, by bv_omega⟩
      · exact ⟨a, by bv_omega⟩
    · rintro ⟨a, b⟩
      by_cases hy : y' = y
      · exact Or.inl ⟨hy, a⟩
      · exact Or.inr ⟨a, by bv_omega⟩

theorem draws_drawBox {u} (hu : Ready u) (x y w h : Byte) (hh : h ≠ 0) :
    Draws u (drawBox u x y w h) (fun x' y' => x' - x < w ∧ y' - y < h) := by
  unfold drawBox
  by_cases hi : isBBXIntersection u x y w h = true
  · rw [if_pos hi]; exact draws_boxRaw hu x y w h hh
  · rw [if_neg hi]
    refine Draws.refl u ?_
    rintro x' y' ho ⟨a, b⟩
    exact clip hu (w := w) (h := h) (by bv_omega) hh (by simpa using hi) ho ⟨a, b⟩

theorem interval_zero {a0 a1 v p : Byte} (h0 : a0 ≤ p) (h1 : p ≤ a1) :
    isIntersection a0 a1 v (v + 0 - 1) = true := by
  unfold isIntersection
  by_cases c1 : v ≤ a1
  · rw [if_pos c1]
    by_cases c2 : a0 ≤ v + 0 - 1
    · rw [if_pos c2]
    · rw [if_neg c2]
      exact decide_eq_true (by bv_omega)
  · rw [if_neg c1]
    by_cases c2 : a0 ≤ v + 0 - 1
    · rw [if_pos c2]
      exact decide_eq_true (by bv_omega)
    · bv_omega

theorem clip_any {u} (hu : Ready u) {x y w h : Byte}
    (hi : isBBXIntersection u x y w h = false) {x' y' : Byte}
    (ho : OnPage u.rot u.pb x' y') : (w ≠ 0 ∧ ¬ x' - x < w) ∨ (h ≠ 0 ∧ ¬ y' - y < h) := by
  have hbx := onPage_box hu.page ho
  rw [← hu.box] at hbx
  obtain ⟨b1, b2, b3, b4⟩ := hbx
  unfold isBBXIntersection at hi
  by_cases c : isIntersection u.box.y0 u.box.y1 y (y + h - 1) = true
  · rw [if_pos c] at hi
    have hw : w ≠ 0 := by
      rintro rfl
      rw [interval_zero b1 b2] at hi
      cases hi
    exact Or.inl ⟨hw, interval_clip hw hi b1 b2⟩
  · have hh : h ≠ 0 := by
      rintro rfl
      exact c (interval_zero b3 b4)
    exact Or.inr ⟨hh, interval_clip hh (by simpa using c) b3 b4⟩

theorem draws_hbitmap {y : Byte} :
    ∀ (n : Nat) (u : U8g) (x : Byte) (bm : Nat → Byte), Ready u →
      Draws u (hbitmapLoop u x y bm n)
        (fun x' y' => ∃ j, j < n ∧ Row 8 (x + BitVec.ofNat 8 (8 * j)) y 0 (bm j) x' y') := by
  intro n
  induction n with
  | zero =>
    intro u x bm _
    exact Draws.refl u (by rintro x' y' _ ⟨j, hj, _⟩; omega)
  | succ n ih =>
    intro u x bm hu
    have d1 := draws_8pixel hu (dir := 0) (Or.inl rfl) x y (bm 0)
    refine (d1.trans (ih _ (x + 8) (fun i => bm (i + 1)) (d1.ready hu))).congr fun x' y' _ => ?_
    have e : ∀ j : Nat, x + 8 + BitVec.ofNat 8 (8 * j) = x + BitVec.ofNat 8 (8 * (j + 1)) := by
      intro j
      rw [Nat.mul_add, BitVec.ofNat_add, BitVec.add_assoc, BitVec.add_comm (8 : Byte)]
      rfl
    constructor
    · rintro (h | ⟨j, hj, h⟩)
      · exact ⟨0, by omega, by simpa using h⟩
      · exact ⟨j + 1, by omega, by rw [← e]; exact h⟩
    · rintro ⟨j, hj, h⟩
      cases j with
      | zero => exact Or.inl (by simpa using h)
      | succ j => exact Or.inr ⟨j, by omega, by rw [e]; exact h⟩

theorem draws_bitmapLoop {x cnt : Byte} :
    ∀ (n : Nat) (u : U8g) (y : Byte) (bm : Nat → Byte), Ready u →
      Draws u (bitmapLoop u x y cnt bm n)
        (fun x' y' => ∃ r, r < n ∧ ∃ j, j < cnt.toNat ∧
          Row 8 (x + BitVec.ofNat 8 (8 * j)) (y + BitVec.ofNat 8 r) 0 (bm (r * cnt.toNat + j))
            x' y') := by
  intro n
  induction n with
  | zero =>
    intro u y bm _
    exact Draws.refl u (by rintro x' y' _ ⟨j, hj, _⟩; omega)
  | succ n ih =>
    intro u y bm hu
    have d1 := draws_hbitmap (y := y) cnt.toNat u x bm hu
    refine (d1.trans (ih _ (y + 1) (fun i => bm (i + cnt.toNat)) (d1.ready hu))).congr
      fun x' y' _ => ?_
    have e : ∀ j : Nat, y + 1 + BitVec.ofNat 8 j = y + BitVec.ofNat 8 (j + 1) := by
      intro j
      rw [BitVec.ofNat_add, BitVec.add_assoc, BitVec.add_comm (1 : Byte)]
      rfl
    have e2 : ∀ r j : Nat, r * cnt.toNat + j + cnt.toNat = (r + 1) * cnt.toNat + j := by
      intro r j
      rw [Nat.add_mul, Nat.one_mul]; omega
    constructor
    · rintro (⟨j, hj, h⟩ | ⟨r, hr, j, hj, h⟩)
      · exact ⟨0, by omega, j, hj, by simpa using h⟩
      · exact ⟨r + 1, by omega, j, hj, by rw [← e, ← e2]; exact h⟩
    · rintro ⟨r, hr, j, hj, h⟩
      cases r with
      | zero => exact Or.inl ⟨j, hj, by simpa using h⟩
      | succ r => exact Or.inr ⟨r, by omega, j, hj, by rw [e, e2]; exact h⟩

theorem draws_bitmap {u} (hu : Ready u) (x y cnt h : Byte) (bm : Nat → Byte) (hc : cnt ≤ 32) :
    Draws u (drawBitmap u x y cnt h bm)
      (fun x' y' => ∃ r, r < h.toNat ∧ ∃ j, j < cnt.toNat ∧
          Row 8 (x + BitVec.ofNat 8 (8 * j)) (y + BitVec.ofNat 8 r) 0 (bm (r * cnt.toNat + j))
            x' y') := by
  unfold drawBitmap
  by_cases hi : isBBXIntersection u x y (cnt * 8) h = true
  · rw [if_pos hi]; exact draws_bitmapLoop h.toNat u y bm hu
  · rw [if_neg hi]
    refine Draws.refl u ?_
    rintro x' y' ho ⟨r, hr, j, hj, i, hi8, _, _, e1, e2⟩
    have hc' : cnt.toNat ≤ 32 := hc
    have hr2 : (BitVec.ofNat 8 r : Byte).toNat = r := by
      rw [BitVec.toNat_ofNat]; have := h.isLt; omega
    rcases clip_any hu (by simpa using hi) ho with ⟨hw, hn⟩ | ⟨hh, hn⟩
    · apply hn
      have hx : x' - x = BitVec.ofNat 8 (8 * j + i) := by
        rw [e1, BitVec.ofNat_add]
        have : stepX 0 = 1#8 := rfl
        rw [this, BitVec.mul_one, BitVec.add_assoc, BitVec.add_comm x, BitVec.add_sub_cancel]
      have hw2 : (cnt * 8).toNat ≠ 0 := fun hz => hw (BitVec.eq_of_toNat_eq hz)
      have h8 : (cnt * 8).toNat = cnt.toNat * 8 % 256 := BitVec.toNat_mul cnt 8
      rw [h8] at hw2
      rw [hx, BitVec.lt_def, BitVec.toNat_ofNat]
      refine Nat.lt_of_lt_of_eq ?_ h8.symm
      omega
    · apply hn
      have hy : y' - y = BitVec.ofNat 8 r := by
        rw [e2]
        have : stepY 0 = 0#8 := rfl
        rw [this, BitVec.mul_zero, BitVec.add_zero, BitVec.add_comm y, BitVec.add_sub_cancel]
      rw [hy, BitVec.lt_def, hr2]
      exact hr

theorem draws_dots : ∀ (ps : List (Byte × Byte)) (u : U8g), Ready u →
    Draws u (ps.foldl (fun u p => drawPixel u p.1 p.2) u) (fun x' y' => (x', y') ∈ ps) := by
  intro ps
  induction ps with
  | nil => intro u _; exact Draws.refl u (by simp)
  | cons p ps ih =>
    intro u hu
    have d1 := draws_pixel hu p.1 p.2
    refine (d1.trans (ih _ (d1.ready hu))).congr fun x' y' _ => ?_
    simp only [List.mem_cons]
    constructor
    · rintro (⟨a, b⟩ | h)
      · exact Or.inl (by rw [a, b])
      · exact Or.inr h
    · rintro (h | h)
      · exact Or.inl (by rw [← h]; exact ⟨rfl, rfl⟩)
      · exact Or.inr h

end Verif.U8g
