import Verif.U8g.Props116

/-!
# C118: circles are round and discs are full

A circle is drawn with additions only: a decision value tells whether the next point is
in the same row or in the row below. The property says that the points are the ones
nearest to the true circle, that a disc is the circle with all points inside, and that
quarters are the quarters asked for.
-/

namespace Verif.U8g

/-- The pages of a picture, read point by point. -/
theorem pages_point (u : U8g) (c : Cmd) (hn : ∀ i, c ≠ .color i) {W H : Nat}
    (hW : u.pb.width.toNat = W) (hW0 : 0 < W) (hph : u.pb.p.pageHeight = 8)
    (hH : u.pb.p.totalHeight.toNat = H) (h8 : 8 ≤ H) (hmax : H ≤ 248) (ha : Allowed c) :
    ∃ u' out, pictureLoop [.color 1, c] ((H + 7) / 8) (firstPage u) = some u' ∧
      u'.sent = u.sent ++ out ∧ out.length = (H + 7) / 8 ∧
      ∀ X Y, X < W → Y < H → ∃ e, out[Y / 8]? = some e ∧
        ((e.2.getD X 0).getLsbD (Y % 8) = true ↔
          Covers c (BitVec.ofNat 8 (userPoint u.rot W H X Y).1)
            (BitVec.ofNat 8 (userPoint u.rot W H X Y).2)) := by
  obtain ⟨u', out, h1, h2, h3, h4⟩ := C116_one_picture u [.color 1, c] hW hW0 hph hH h8 hmax
    (by
      intro d hd
      simp only [List.mem_cons, List.not_mem_nil, or_false] at hd
      rcases hd with rfl | rfl
      · exact trivial
      · exact ha) _ (Nat.le_refl _) (Or.inl ⟨1, [c], rfl⟩)
  refine ⟨u', out, h1, h2, h3, fun X Y hX hY => ?_⟩
  have hk : Y / 8 < out.length := by omega
  refine ⟨out[Y / 8], List.getElem?_eq_getElem hk, ?_⟩
  obtain ⟨_, _, h5⟩ := h4 (Y / 8) _ (List.getElem?_eq_getElem hk)
  have h6 := h5 X (Y % 8) hX (by omega) (by omega)
  have e : 8 * (Y / 8) + Y % 8 = Y := by omega
  rw [e] at h6
  rw [h6]
  simp only [expected, picture, List.foldl_cons, List.foldl_nil]
  rw [look_draw _ _ _ c hn]
  by_cases hc : Covers c (BitVec.ofNat 8 (userPoint u.rot W H X Y).1)
      (BitVec.ofNat 8 (userPoint u.rot W H X Y).2)
  · simp [hc, look]
  · simp [hc, look]

/-- **C118**, partial: the radius is at most 76. A circle, or any of its quarters, on a display
of any width and 8 to 248 rows: lit are exactly the points that are nearest to the true
circle. -/
theorem C118_circle_partial (u : U8g) (x0 y0 rad opt : Byte) {W H : Nat}
    (hW : u.pb.width.toNat = W) (hW0 : 0 < W) (hph : u.pb.p.pageHeight = 8)
    (hH : u.pb.p.totalHeight.toNat = H) (h8 : 8 ≤ H) (hmax : H ≤ 248) (hr : rad ≤ 76) :
    ∃ u' out, pictureLoop [.color 1, .circle x0 y0 rad opt] ((H + 7) / 8) (firstPage u) = some u' ∧
      u'.sent = u.sent ++ out ∧ out.length = (H + 7) / 8 ∧
      ∀ X Y, X < W → Y < H → ∃ e, out[Y / 8]? = some e ∧
        ((e.2.getD X 0).getLsbD (Y % 8) = true ↔
          ∃ dx dy : Int, BitVec.ofNat 8 (userPoint u.rot W H X Y).1 = x0 + BitVec.ofInt 8 dx ∧
            BitVec.ofNat 8 (userPoint u.rot W H X Y).2 = y0 + BitVec.ofInt 8 dy ∧
            OnCircle rad.toNat dx dy ∧ Chosen opt dx dy) :=
  pages_point u (.circle x0 y0 rad opt) (fun _ h => by cases h) hW hW0 hph hH h8 hmax hr

/-- **C118**, partial: the radius is at most 76. The same for a disc: lit are exactly the
points on the circle and inside. -/
theorem C118_disc_partial (u : U8g) (x0 y0 rad opt : Byte) {W H : Nat}
    (hW : u.pb.width.toNat = W) (hW0 : 0 < W) (hph : u.pb.p.pageHeight = 8)
    (hH : u.pb.p.totalHeight.toNat = H) (h8 : 8 ≤ H) (hmax : H ≤ 248) (hr : rad ≤ 76) :
    ∃ u' out, pictureLoop [.color 1, .disc x0 y0 rad opt] ((H + 7) / 8) (firstPage u) = some u' ∧
      u'.sent = u.sent ++ out ∧ out.length = (H + 7) / 8 ∧
      ∀ X Y, X < W → Y < H → ∃ e, out[Y / 8]? = some e ∧
        ((e.2.getD X 0).getLsbD (Y % 8) = true ↔
          ∃ dx dy : Int, BitVec.ofNat 8 (userPoint u.rot W H X Y).1 = x0 + BitVec.ofInt 8 dx ∧
            BitVec.ofNat 8 (userPoint u.rot W H X Y).2 = y0 + BitVec.ofInt 8 dy ∧
            InDisc rad.toNat dx dy ∧ Chosen opt dx dy) :=
  pages_point u (.disc x0 y0 rad opt) (fun _ h => by cases h) hW hW0 hph hH h8 hmax hr

/-- **C118**, for every radius: the disc is the circle with everything between its points, column
by column. -/
theorem C118_disc_is_filled_circle (r : Nat) (dx dy : Int) :
    InDisc r dx dy ↔ ∃ dy' : Int, dy.natAbs ≤ dy'.natAbs ∧ OnCircle r dx dy' := by
  constructor
  · intro h
    rw [inDisc_cases] at h
    rcases h with ⟨h1, h2 | h2⟩ | ⟨h1, h2⟩
    · refine ⟨r, by omega, ?_⟩
      rw [onCircle_near]
      left
      have e : dx.natAbs = 0 := by omega
      have e2 : ((r : Int)).natAbs = r := by omega
      rw [e, e2]
      exact ⟨Nat.zero_le _, near_start r⟩
    · obtain ⟨b, g1, g2⟩ := near_above h2
      refine ⟨b, by omega, ?_⟩
      rw [onCircle_near]
      left
      have e2 : ((b : Int)).natAbs = b := by omega
      rw [e2]
      exact ⟨by omega, g2⟩
    · obtain ⟨x, g1, g2, g3⟩ := last_column (p := dx.natAbs) (by omega) r dy.natAbs (by omega) h2
      by_cases hx : dx.natAbs ≤ x
      · have h3 : (dx.natAbs : Int) * dx.natAbs - dx.natAbs < r * r - (dx.natAbs : Int) * dx.natAbs := by
          have : (dx.natAbs : Int) ≤ x := by omega
          have : (0 : Int) ≤ dx.natAbs := by omega
          generalize (dx.natAbs : Int) = A at *
          nlinarith
        obtain ⟨b, k1, k2⟩ := near_above h3
        refine ⟨b, by omega, ?_⟩
        rw [onCircle_near]
        left
        have e2 : ((b : Int)).natAbs = b := by omega
        rw [e2]
        exact ⟨by omega, k2⟩
      · refine ⟨x, by omega, ?_⟩
        rw [onCircle_near]
        right
        have e2 : ((x : Int)).natAbs = x := by omega
        rw [e2]
        refine ⟨by omega, Or.inr g2, ?_⟩
        have : (x : Int) + 1 ≤ dx.natAbs := by omega
        generalize (dx.natAbs : Int) = A at *
        nlinarith
  · rintro ⟨dy', hle, h⟩
    rw [onCircle_near] at h
    rw [inDisc_cases]
    generalize dx.natAbs = A at *
    generalize dy.natAbs = B at *
    generalize dy'.natAbs = C at *
    have sq : ∀ a b : Int, 1 ≤ a → a ≤ b → a * a - a ≤ b * b - b := by
      intro a b h1 h2; nlinarith
    rcases h with ⟨h1, n1, n2⟩ | ⟨h1, n1, n2⟩
    · by_cases hAB : A ≤ B
      · left
        refine ⟨hAB, ?_⟩
        by_cases h0 : B = 0
        · left; omega
        · right
          rcases n1 with n1 | n1
          · omega
          · have := sq B C (by omega) (by omega); omega
      · right
        refine ⟨by omega, ?_⟩
        rcases n1 with n1 | n1
        · omega
        · have k1 := sq A C (by omega) (by omega)
          have : (B : Int) ≤ A := by omega
          nlinarith
    · by_cases hAB : A ≤ B
      · left
        have e1 : C = A := by omega
        have e2 : B = A := by omega
        rw [e1] at n1
        rw [e2]
        exact ⟨Nat.le_refl _, n1⟩
      · right
        refine ⟨by omega, ?_⟩
        rcases n1 with n1 | n1
        · omega
        · have : (B : Int) ≤ C := by omega
          nlinarith

/-- **C118**, for every radius: the circle has no gap, every column within the radius has a
point, and no point is further away from the centre's axes than the radius. -/
theorem C118_no_gap (r : Nat) (dx : Int) :
    (dx.natAbs ≤ r ↔ ∃ dy : Int, OnCircle r dx dy) ∧
    (∀ dy, OnCircle r dx dy → OnCircle r dy dx ∧ OnCircle r (-dx) dy ∧ OnCircle r dx (-dy)) := by
  refine ⟨⟨fun h => ?_, fun ⟨dy, h⟩ => (onCircle_bound h).1⟩, ?_⟩
  · have hd : InDisc r dx 0 := by
      rw [inDisc_cases]
      by_cases h0 : dx.natAbs = 0
      · left; exact ⟨by omega, Or.inl rfl⟩
      · right
        refine ⟨by omega, ?_⟩
        have h1 : (1 : Int) ≤ dx.natAbs := by omega
        have h2 : (dx.natAbs : Int) ≤ r := by omega
        have e : (((0 : Int).natAbs : Nat) : Int) = 0 := rfl
        rw [e]
        generalize (dx.natAbs : Int) = A at *
        nlinarith
    obtain ⟨dy, _, h⟩ := (C118_disc_is_filled_circle r dx 0).1 hd
    exact ⟨dy, h⟩
  · intro dy h
    refine ⟨?_, ?_, ?_⟩
    · unfold OnCircle at *
      rw [min_comm, max_comm]
      exact h
    · unfold OnCircle at *
      rw [Int.natAbs_neg]
      exact h
    · unfold OnCircle at *
      rw [Int.natAbs_neg]
      exact h

/-- **C118**, for every radius: the drawing loop ends. The number of passes that the model
allows is enough, more of them change nothing. -/
theorem C118_ends (x y f ddfX ddfY : Byte) (n : Nat) (hn : y.toNat - x.toNat ≤ n) :
    circleSteps n x y f ddfX ddfY = circleSteps (y.toNat - x.toNat) x y f ddfX ddfY := by
  have key : ∀ (n m : Nat) (x y f ddfX ddfY : Byte), y.toNat - x.toNat ≤ n →
      y.toNat - x.toNat ≤ m → circleSteps n x y f ddfX ddfY = circleSteps m x y f ddfX ddfY := by
    have stop : ∀ (n : Nat) (x y f ddfX ddfY : Byte), ¬ x < y →
        circleSteps n x y f ddfX ddfY = [(x, y)] := by
      intro n x y f ddfX ddfY h
      cases n with
      | zero => rfl
      | succ n => rw [circleSteps, if_neg h]
    intro n
    induction n with
    | zero =>
      intro m x y f ddfX ddfY h1 _
      have h : ¬ x < y := by rw [BitVec.lt_def]; omega
      rw [stop _ _ _ _ _ _ h, stop _ _ _ _ _ _ h]
    | succ n ih =>
      intro m x y f ddfX ddfY h1 h2
      by_cases h : x < y
      · cases m with
        | zero => rw [BitVec.lt_def] at h; omega
        | succ m =>
          have hx : (x + 1).toNat = x.toNat + 1 := by bv_omega
          have hy : (y - 1).toNat = y.toNat - 1 := by bv_omega
          rw [circleSteps, circleSteps, if_pos h, if_pos h]
          rw [ih m (x + 1) y _ _ _ (by omega) (by omega),
            ih m (x + 1) (y - 1) _ _ _ (by omega) (by omega)]
      · rw [stop _ _ _ _ _ _ h, stop _ _ _ _ _ _ h]
  exact key n _ x y f ddfX ddfY hn (Nat.le_refl _)

/-- Whether a point lies on the circle, as a computation. -/
def onCircleB (r a b : Nat) : Bool :=
  (max a b == 0 || decide (((max a b * max a b : Nat) : Int) - (max a b : Nat) <
      ((r * r : Nat) : Int) - (min a b * min a b : Nat))) &&
    decide (((r * r : Nat) : Int) - (min a b * min a b : Nat) ≤
      ((max a b * max a b + max a b : Nat) : Int))

theorem onCircleB_iff (r a b : Nat) : onCircleB r a b = true ↔ OnCircle r a b := by
  unfold onCircleB OnCircle
  have e1 : ((a : Int)).natAbs = a := by omega
  have e2 : ((b : Int)).natAbs = b := by omega
  rw [e1, e2]
  simp only [Bool.and_eq_true, Bool.or_eq_true, beq_iff_eq, decide_eq_true_eq]
  push_cast
  constructor
  · rintro ⟨h1, h2⟩; exact ⟨h1.imp (fun h => by omega) id, h2⟩
  · rintro ⟨h1, h2⟩; exact ⟨h1.imp (fun h => by omega) id, h2⟩

set_option maxRecDepth 100000 in
theorem too_large_table : ∀ rad : Byte, 76 < rad → rad ≠ 82 → rad ≠ 83 →
    ((circleStart rad).any fun s => !onCircleB rad.toNat s.1.toNat s.2.toNat) = true := by
  decide +kernel

/-- **C118**, a finding: the decision value has eight bits. For every radius above 76, except 82
and 83, the circle has points that do not belong there. -/
theorem C118_too_large (rad : Byte) (h : 76 < rad) (h1 : rad ≠ 82) (h2 : rad ≠ 83) :
    ∃ s ∈ circleStart rad, ¬ OnCircle rad.toNat s.1.toNat s.2.toNat := by
  have := too_large_table rad h h1 h2
  rw [List.any_eq_true] at this
  obtain ⟨s, hs, hb⟩ := this
  refine ⟨s, hs, fun hc => ?_⟩
  rw [(onCircleB_iff _ _ _).2 hc] at hb
  cases hb

/-- The circle of radius 3: its points in the first eighth. -/
example : circleStart 3 = [(0, 3), (1, 3), (2, 2)] := by decide +kernel

/-- Points on and off the circle of radius 3, and a point of the disc that is not on it. -/
example : OnCircle 3 (-1) 3 ∧ ¬ OnCircle 3 0 2 ∧ InDisc 3 0 2 ∧ ¬ InDisc 3 2 3 ∧
    Chosen 0x02 (-1) (-3) ∧ ¬ Chosen 0x02 (-1) 3 := by
  refine ⟨?_, ?_, ?_, ?_, ?_, ?_⟩ <;> simp [OnCircle, InDisc, Chosen]

end Verif.U8g
