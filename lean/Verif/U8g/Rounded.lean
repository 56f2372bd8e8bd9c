import Verif.U8g.Circle

/-!
# Frames and boxes with rounded corners

Helper lemmas: the quarters of a circle and the straight pieces make up the figure.
-/

namespace Verif.U8g

theorem low_iff (x r px : Byte) {d : Int} (h0 : d ≤ 0) (h1 : d.natAbs ≤ r.toNat) :
    px = x + r + BitVec.ofInt 8 d ↔ (px - x).toNat + d.natAbs = r.toNat := by
  obtain ⟨b, hb⟩ := byte_of d.natAbs (by have := r.isLt; omega)
  have e : d = -(b.toNat : Int) := by omega
  rw [← hb] at h1 ⊢
  rw [e, ofInt_neg_nat]
  constructor
  · rintro rfl; bv_omega
  · intro h; bv_omega

theorem high_iff (x w r px : Byte) {d : Int} (h0 : 0 ≤ d) (h1 : d.natAbs ≤ r.toNat)
    (hw : r.toNat < w.toNat) :
    px = x + w - r - 1 + BitVec.ofInt 8 d ↔ (px - x).toNat + r.toNat + 1 = w.toNat + d.natAbs := by
  obtain ⟨b, hb⟩ := byte_of d.natAbs (by have := r.isLt; omega)
  have e : d = (b.toNat : Int) := by omega
  rw [← hb] at h1 ⊢
  rw [e, ofInt_nat]
  constructor
  · rintro rfl; bv_omega
  · intro h; bv_omega

/-- A set of points that does not depend on the signs and stays within the radius. -/
structure Round (r : Nat) (P : Int → Int → Prop) : Prop where
  bound : ∀ {dx dy}, P dx dy → dx.natAbs ≤ r ∧ dy.natAbs ≤ r
  sign : ∀ {dx dy dx' dy' : Int}, dx.natAbs = dx'.natAbs → dy.natAbs = dy'.natAbs →
    P dx dy → P dx' dy'

theorem round_circle (r : Nat) : Round r (OnCircle r) :=
  ⟨onCircle_bound, fun h1 h2 h => by unfold OnCircle at *; rw [← h1, ← h2]; exact h⟩

theorem round_disc (r : Nat) : Round r (InDisc r) :=
  ⟨inDisc_bound, fun h1 h2 h => by unfold InDisc at *; rw [← h1, ← h2]; exact h⟩

/-- The four quarters, in the columns and rows of the rectangle. -/
theorem quarters {x y w h r px py : Byte} {P : Int → Int → Prop} (hP : Round r.toNat P)
    (hw : r.toNat < w.toNat) (hh : r.toNat < h.toNat) {i j : Nat} (hi : i = (px - x).toNat)
    (hj : j = (py - y).toNat) :
    ((∃ dx dy : Int, px = x + r + BitVec.ofInt 8 dx ∧ py = y + r + BitVec.ofInt 8 dy ∧
        P dx dy ∧ Chosen 0x02 dx dy) ↔
      i ≤ r.toNat ∧ j ≤ r.toNat ∧ P ((r.toNat : Int) - i) ((r.toNat : Int) - j)) ∧
    ((∃ dx dy : Int, px = x + w - r - 1 + BitVec.ofInt 8 dx ∧ py = y + r + BitVec.ofInt 8 dy ∧
        P dx dy ∧ Chosen 0x01 dx dy) ↔
      w.toNat ≤ i + r.toNat + 1 ∧ j ≤ r.toNat ∧
        P ((i : Int) + r.toNat + 1 - w.toNat) ((r.toNat : Int) - j)) ∧
    ((∃ dx dy : Int, px = x + r + BitVec.ofInt 8 dx ∧ py = y + h - r - 1 + BitVec.ofInt 8 dy ∧
        P dx dy ∧ Chosen 0x04 dx dy) ↔
      i ≤ r.toNat ∧ h.toNat ≤ j + r.toNat + 1 ∧
        P ((r.toNat : Int) - i) ((j : Int) + r.toNat + 1 - h.toNat)) ∧
    ((∃ dx dy : Int, px = x + w - r - 1 + BitVec.ofInt 8 dx ∧
        py = y + h - r - 1 + BitVec.ofInt 8 dy ∧ P dx dy ∧ Chosen 0x08 dx dy) ↔
      w.toNat ≤ i + r.toNat + 1 ∧ h.toNat ≤ j + r.toNat + 1 ∧
        P ((i : Int) + r.toNat + 1 - w.toNat) ((j : Int) + r.toNat + 1 - h.toNat)) := by
  have c2 : ∀ dx dy : Int, Chosen 0x02 dx dy ↔ dx ≤ 0 ∧ dy ≤ 0 := by
    intro dx dy; simp [Chosen]
  have c1 : ∀ dx dy : Int, Chosen 0x01 dx dy ↔ 0 ≤ dx ∧ dy ≤ 0 := by
    intro dx dy; simp [Chosen]
  have c4 : ∀ dx dy : Int, Chosen 0x04 dx dy ↔ dx ≤ 0 ∧ 0 ≤ dy := by
    intro dx dy; simp [Chosen]
  have c8 : ∀ dx dy : Int, Chosen 0x08 dx dy ↔ 0 ≤ dx ∧ 0 ≤ dy := by
    intro dx dy; simp [Chosen]
  refine ⟨⟨?_, ?_⟩, ⟨?_, ?_⟩, ⟨?_, ?_⟩, ⟨?_, ?_⟩⟩
  · rintro ⟨dx, dy, e1, e2, p, c⟩
    obtain ⟨s1, s2⟩ := (c2 dx dy).1 c
    obtain ⟨b1, b2⟩ := hP.bound p
    have k1 := (low_iff x r px s1 b1).1 e1
    have k2 := (low_iff y r py s2 b2).1 e2
    exact ⟨by omega, by omega, hP.sign (by omega) (by omega) p⟩
  · rintro ⟨g1, g2, p⟩
    obtain ⟨b1, b2⟩ := hP.bound p
    exact ⟨(i : Int) - r.toNat, (j : Int) - r.toNat,
      (low_iff x r px (by omega) (by omega)).2 (by omega),
      (low_iff y r py (by omega) (by omega)).2 (by omega),
      hP.sign (by omega) (by omega) p, (c2 _ _).2 ⟨by omega, by omega⟩⟩
  · rintro ⟨dx, dy, e1, e2, p, c⟩
    obtain ⟨s1, s2⟩ := (c1 dx dy).1 c
    obtain ⟨b1, b2⟩ := hP.bound p
    have k1 := (high_iff x w r px s1 b1 hw).1 e1
    have k2 := (low_iff y r py s2 b2).1 e2
    exact ⟨by omega, by omega, hP.sign (by omega) (by omega) p⟩
  · rintro ⟨g1, g2, p⟩
    obtain ⟨b1, b2⟩ := hP.bound p
    exact ⟨(i : Int) + r.toNat + 1 - w.toNat, (j : Int) - r.toNat,
      (high_iff x w r px (by omega) (by omega) hw).2 (by omega),
      (low_iff y r py (by omega) (by omega)).2 (by omega),
      hP.sign (by omega) (by omega) p, (c1 _ _).2 ⟨by omega, by omega⟩⟩
  · rintro ⟨dx, dy, e1, e2, p, c⟩
    obtain ⟨s1, s2⟩ := (c4 dx dy).1 c
    obtain ⟨b1, b2⟩ := hP.bound p
    have k1 := (low_iff x r px s1 b1).1 e1
    have k2 := (high_iff y h r py s2 b2 hh).1 e2
    exact ⟨by omega, by omega, hP.sign (by omega) (by omega) p⟩
  · rintro ⟨g1, g2, p⟩
    obtain ⟨b1, b2⟩ := hP.bound p
    exact ⟨(i : Int) - r.toNat, (j : Int) + r.toNat + 1 - h.toNat,
      (low_iff x r px (by omega) (by omega)).2 (by omega),
      (high_iff y h r py (by omega) (by omega) hh).2 (by omega),
      hP.sign (by omega) (by omega) p, (c4 _ _).2 ⟨by omega, by omega⟩⟩
  · rintro ⟨dx, dy, e1, e2, p, c⟩
    obtain ⟨s1, s2⟩ := (c8 dx dy).1 c
    obtain ⟨b1, b2⟩ := hP.bound p
    have k1 := (high_iff x w r px s1 b1 hw).1 e1
    have k2 := (high_iff y h r py s2 b2 hh).1 e2
    exact ⟨by omega, by omega, hP.sign (by omega) (by omega) p⟩
  · rintro ⟨g1, g2, p⟩
    obtain ⟨b1, b2⟩ := hP.bound p
    exact ⟨(i : Int) + r.toNat + 1 - w.toNat, (j : Int) + r.toNat + 1 - h.toNat,
      (high_iff x w r px (by omega) (by omega) hw).2 (by omega),
      (high_iff y h r py (by omega) (by omega) hh).2 (by omega),
      hP.sign (by omega) (by omega) p, (c8 _ _).2 ⟨by omega, by omega⟩⟩

theorem onCircle_axis (r : Nat) (d : Int) : OnCircle r 0 d ↔ d.natAbs = r := by
  rw [onCircle_near]
  have e : (0 : Int).natAbs = 0 := rfl
  rw [e]
  constructor
  · rintro (⟨_, h⟩ | ⟨h0, h⟩)
    · have h1 := near_bound (Nat.zero_le _) h
      obtain ⟨_, h2⟩ := h
      by_contra hc
      have : (d.natAbs : Int) + 1 ≤ r := by omega
      have h0 : (0 : Int) ≤ d.natAbs := by omega
      generalize (d.natAbs : Int) = B at *
      push_cast at h2
      nlinarith
    · have h1 := near_bound h0 h
      obtain ⟨_, h2⟩ := h
      have hd : d.natAbs = 0 := by omega
      rw [hd] at h2 ⊢
      push_cast at h2
      have : (r : Int) = 0 := by
        have : (0 : Int) ≤ r := by omega
        nlinarith
      omega
  · intro h
    rw [h]
    exact Or.inl ⟨Nat.zero_le _, near_start r⟩

theorem onCircle_swap {r : Nat} {dx dy : Int} : OnCircle r dx dy ↔ OnCircle r dy dx := by
  rw [onCircle_near, onCircle_near]
  exact Or.comm

theorem inDisc_axis (r : Nat) (d : Int) : InDisc r 0 d ↔ d.natAbs ≤ r := by
  constructor
  · intro h; exact (inDisc_bound h).2
  · intro h
    rw [inDisc_cases]
    left
    have e : (0 : Int).natAbs = 0 := rfl
    rw [e]
    refine ⟨Nat.zero_le _, ?_⟩
    by_cases h0 : d.natAbs = 0
    · left; omega
    · right
      have h1 : (1 : Int) ≤ d.natAbs := by omega
      have h2 : (d.natAbs : Int) ≤ r := by omega
      generalize (d.natAbs : Int) = A at *
      push_cast
      nlinarith

theorem inDisc_swap {r : Nat} {dx dy : Int} : InDisc r dx dy ↔ InDisc r dy dx := by
  unfold InDisc
  rw [min_comm, max_comm]

theorem corner_low {n r i : Nat} (h : i < r) : inCorner n r i = (i : Int) - r := by
  unfold inCorner; rw [if_pos h]

theorem corner_high {n r i : Nat} (hn : 2 * r + 2 ≤ n) (h : n - 1 - r < i) :
    inCorner n r i = (i : Int) + r + 1 - n := by
  unfold inCorner
  rw [if_neg (by omega), if_pos h]
  omega

theorem corner_mid {n r i : Nat} (h1 : r ≤ i) (h : i ≤ n - 1 - r) : inCorner n r i = 0 := by
  unfold inCorner
  rw [if_neg (by omega), if_neg (by omega)]

/-- Where a coordinate can be. -/
theorem corner_cases {n r i : Nat} (hn : 2 * r + 2 ≤ n) (hi : i < n) :
    (i < r ∧ inCorner n r i = (i : Int) - r) ∨ (r ≤ i ∧ i ≤ n - 1 - r ∧ inCorner n r i = 0) ∨
    (n - 1 - r < i ∧ inCorner n r i = (i : Int) + r + 1 - n) := by
  by_cases h1 : i < r
  · exact Or.inl ⟨h1, corner_low h1⟩
  · by_cases h2 : i ≤ n - 1 - r
    · exact Or.inr (Or.inl ⟨by omega, h2, corner_mid (by omega) h2⟩)
    · exact Or.inr (Or.inr ⟨by omega, corner_high hn (by omega)⟩)

theorem rframe_iff {w h r i j : Nat} (hw : 2 * r + 2 ≤ w) (hh : 2 * r + 2 ≤ h) (hi : i < w)
    (hj : j < h) :
    OnRFrame w h r i j ↔
      (i ≤ r ∧ j ≤ r ∧ OnCircle r ((r : Int) - i) ((r : Int) - j)) ∨
      (w ≤ i + r + 1 ∧ j ≤ r ∧ OnCircle r ((i : Int) + r + 1 - w) ((r : Int) - j)) ∨
      (i ≤ r ∧ h ≤ j + r + 1 ∧ OnCircle r ((r : Int) - i) ((j : Int) + r + 1 - h)) ∨
      (w ≤ i + r + 1 ∧ h ≤ j + r + 1 ∧ OnCircle r ((i : Int) + r + 1 - w) ((j : Int) + r + 1 - h)) ∨
      (r + 1 ≤ i ∧ i < w - r - 1 ∧ j = 0) ∨ (r + 1 ≤ i ∧ i < w - r - 1 ∧ j = h - 1) ∨
      (r + 1 ≤ j ∧ j < h - r - 1 ∧ i = 0) ∨ (r + 1 ≤ j ∧ j < h - r - 1 ∧ i = w - 1) := by
  have sg : ∀ {a b a' b' : Int}, a.natAbs = a'.natAbs → b.natAbs = b'.natAbs →
      OnCircle r a b → OnCircle r a' b' := (round_circle r).sign
  have ax : ∀ {a b : Int}, OnCircle r a b → a = 0 → b.natAbs = r := by
    intro a b h e; subst e; exact (onCircle_axis r b).1 h
  have ay : ∀ {a b : Int}, OnCircle r a b → b = 0 → a.natAbs = r := by
    intro a b h e; subst e; exact (onCircle_axis r a).1 (onCircle_swap.1 h)
  have mx : ∀ {a b : Int}, a = 0 → b.natAbs = r → OnCircle r a b := by
    intro a b e h; subst e; exact (onCircle_axis r b).2 h
  have my : ∀ {a b : Int}, b = 0 → a.natAbs = r → OnCircle r a b := by
    intro a b e h; subst e; exact onCircle_swap.1 ((onCircle_axis r a).2 h)
  unfold OnRFrame
  rcases corner_cases hw hi with ⟨a1, a2⟩ | ⟨a1, a1', a2⟩ | ⟨a1, a2⟩ <;>
    rcases corner_cases hh hj with ⟨b1, b2⟩ | ⟨b1, b1', b2⟩ | ⟨b1, b2⟩ <;> rw [a2, b2]
  · rw [if_pos ⟨by omega, by omega⟩]
    constructor
    · intro p; exact Or.inl ⟨by omega, by omega, sg (by omega) (by omega) p⟩
    · rintro (⟨_, _, p⟩ | ⟨_, _, _⟩ | ⟨_, _, _⟩ | ⟨_, _, _⟩ | _ | _ | _ | _) <;>
        first | exact sg (by omega) (by omega) p | omega
  · rw [if_neg (by omega)]
    constructor
    · intro p
      have : i = 0 := by omega
      by_cases c1 : j = r
      · exact Or.inl ⟨by omega, by omega, my (by omega) (by omega)⟩
      · by_cases c2 : j = h - 1 - r
        · exact Or.inr (Or.inr (Or.inl ⟨by omega, by omega, my (by omega) (by omega)⟩))
        · exact Or.inr (Or.inr (Or.inr (Or.inr (Or.inr (Or.inr (Or.inl ⟨by omega, by omega, by omega⟩))))))
    · rintro (⟨_, _, p⟩ | ⟨_, _, _⟩ | ⟨_, _, p⟩ | ⟨_, _, _⟩ | _ | _ | _ | _) <;>
        first | omega | (have := ay p (by omega); omega)
  · rw [if_pos ⟨by omega, by omega⟩]
    constructor
    · intro p
      exact Or.inr (Or.inr (Or.inl ⟨by omega, by omega, sg (by omega) (by omega) p⟩))
    · rintro (⟨_, _, _⟩ | ⟨_, _, _⟩ | ⟨_, _, p⟩ | ⟨_, _, _⟩ | _ | _ | _ | _) <;>
        first | exact sg (by omega) (by omega) p | omega
  · rw [if_neg (by omega)]
    constructor
    · intro p
      have : j = 0 := by omega
      by_cases c1 : i = r
      · exact Or.inl ⟨by omega, by omega, mx (by omega) (by omega)⟩
      · by_cases c2 : i = w - 1 - r
        · exact Or.inr (Or.inl ⟨by omega, by omega, mx (by omega) (by omega)⟩)
        · exact Or.inr (Or.inr (Or.inr (Or.inr (Or.inl ⟨by omega, by omega, by omega⟩))))
    · rintro (⟨_, _, p⟩ | ⟨_, _, p⟩ | ⟨_, _, _⟩ | ⟨_, _, _⟩ | _ | _ | _ | _) <;>
        first | omega | (have := ax p (by omega); omega)
  · rw [if_neg (by omega)]
    constructor
    · intro p
      by_cases c1 : i = r
      · by_cases c2 : j = r
        · exact Or.inl ⟨by omega, by omega, mx (by omega) (by omega)⟩
        · by_cases c3 : j = h - 1 - r
          · exact Or.inr (Or.inr (Or.inl ⟨by omega, by omega, mx (by omega) (by omega)⟩))
          · exact Or.inr (Or.inr (Or.inr (Or.inr (Or.inr (Or.inr (Or.inl ⟨by omega, by omega, by omega⟩))))))
      · by_cases c4 : i = w - 1 - r
        · by_cases c2 : j = r
          · exact Or.inr (Or.inl ⟨by omega, by omega, mx (by omega) (by omega)⟩)
          · by_cases c3 : j = h - 1 - r
            · exact Or.inr (Or.inr (Or.inr (Or.inl ⟨by omega, by omega,
                mx (by omega) (by omega)⟩)))
            · exact Or.inr (Or.inr (Or.inr (Or.inr (Or.inr (Or.inr (Or.inr (⟨by omega, by omega, by omega⟩)))))))
        · by_cases c5 : j = 0
          · exact Or.inr (Or.inr (Or.inr (Or.inr (Or.inl ⟨by omega, by omega, by omega⟩))))
          · exact Or.inr (Or.inr (Or.inr (Or.inr (Or.inr (Or.inl ⟨by omega, by omega, by omega⟩)))))
    · rintro (⟨_, _, p⟩ | ⟨_, _, p⟩ | ⟨_, _, p⟩ | ⟨_, _, p⟩ | _ | _ | _ | _) <;>
        first | omega | (have := ax p (by omega); omega)
  · rw [if_neg (by omega)]
    constructor
    · intro p
      have : j = h - 1 := by omega
      by_cases c1 : i = r
      · exact Or.inr (Or.inr (Or.inl ⟨by omega, by omega, mx (by omega) (by omega)⟩))
      · by_cases c2 : i = w - 1 - r
        · exact Or.inr (Or.inr (Or.inr (Or.inl ⟨by omega, by omega,
            mx (by omega) (by omega)⟩)))
        · exact Or.inr (Or.inr (Or.inr (Or.inr (Or.inr (Or.inl ⟨by omega, by omega, by omega⟩)))))
    · rintro (⟨_, _, _⟩ | ⟨_, _, _⟩ | ⟨_, _, p⟩ | ⟨_, _, p⟩ | _ | _ | _ | _) <;>
        first | omega | (have := ax p (by omega); omega)
  · rw [if_pos ⟨by omega, by omega⟩]
    constructor
    · intro p; exact Or.inr (Or.inl ⟨by omega, by omega, sg (by omega) (by omega) p⟩)
    · rintro (⟨_, _, _⟩ | ⟨_, _, p⟩ | ⟨_, _, _⟩ | ⟨_, _, _⟩ | _ | _ | _ | _) <;>
        first | exact sg (by omega) (by omega) p | omega
  · rw [if_neg (by omega)]
    constructor
    · intro p
      have : i = w - 1 := by omega
      by_cases c1 : j = r
      · exact Or.inr (Or.inl ⟨by omega, by omega, my (by omega) (by omega)⟩)
      · by_cases c2 : j = h - 1 - r
        · exact Or.inr (Or.inr (Or.inr (Or.inl ⟨by omega, by omega,
            my (by omega) (by omega)⟩)))
        · exact Or.inr (Or.inr (Or.inr (Or.inr (Or.inr (Or.inr (Or.inr (⟨by omega, by omega, by omega⟩)))))))
    · rintro (⟨_, _, _⟩ | ⟨_, _, p⟩ | ⟨_, _, _⟩ | ⟨_, _, p⟩ | _ | _ | _ | _) <;>
        first | omega | (have := ay p (by omega); omega)
  · rw [if_pos ⟨by omega, by omega⟩]
    constructor
    · intro p
      exact Or.inr (Or.inr (Or.inr (Or.inl ⟨by omega, by omega, sg (by omega) (by omega) p⟩)))
    · rintro (⟨_, _, _⟩ | ⟨_, _, _⟩ | ⟨_, _, _⟩ | ⟨_, _, p⟩ | _ | _ | _ | _) <;>
        first | exact sg (by omega) (by omega) p | omega

theorem rbox_iff {w h r i j : Nat} (hw : 2 * r + 2 ≤ w) (hh : 2 * r + 2 ≤ h) (hi : i < w)
    (hj : j < h) :
    InRBox w h r i j ↔
      (i ≤ r ∧ j ≤ r ∧ InDisc r ((r : Int) - i) ((r : Int) - j)) ∨
      (w ≤ i + r + 1 ∧ j ≤ r ∧ InDisc r ((i : Int) + r + 1 - w) ((r : Int) - j)) ∨
      (i ≤ r ∧ h ≤ j + r + 1 ∧ InDisc r ((r : Int) - i) ((j : Int) + r + 1 - h)) ∨
      (w ≤ i + r + 1 ∧ h ≤ j + r + 1 ∧ InDisc r ((i : Int) + r + 1 - w) ((j : Int) + r + 1 - h)) ∨
      (r + 1 ≤ i ∧ i < w - r - 1 ∧ j < r + 1) ∨
      (r + 1 ≤ i ∧ i < w - r - 1 ∧ h - r - 1 ≤ j) ∨
      (r + 1 ≤ j ∧ j < h - r - 1) := by
  have sg : ∀ {a b a' b' : Int}, a.natAbs = a'.natAbs → b.natAbs = b'.natAbs →
      InDisc r a b → InDisc r a' b' := (round_disc r).sign
  have mx : ∀ {a b : Int}, a = 0 → b.natAbs ≤ r → InDisc r a b := by
    intro a b e h; subst e; exact (inDisc_axis r b).2 h
  have my : ∀ {a b : Int}, b = 0 → a.natAbs ≤ r → InDisc r a b := by
    intro a b e h; subst e; exact inDisc_swap.1 ((inDisc_axis r a).2 h)
  have dec : (∀ a b : Int, a = 0 ∨ b = 0 → a.natAbs ≤ r → b.natAbs ≤ r → InDisc r a b) := by
    rintro a b (h | h) h1 h2
    · exact mx h h2
    · exact my h h1
  unfold InRBox
  have straight : ∀ a b : Int, a = 0 ∨ b = 0 → a.natAbs ≤ r → b.natAbs ≤ r →
      ∀ Q : Prop, Q → (InDisc r a b ↔ Q) := fun a b h1 h2 h3 Q q =>
    ⟨fun _ => q, fun _ => dec a b h1 h2 h3⟩
  rcases corner_cases hw hi with ⟨a1, a2⟩ | ⟨a1, a1', a2⟩ | ⟨a1, a2⟩ <;>
    rcases corner_cases hh hj with ⟨b1, b2⟩ | ⟨b1, b1', b2⟩ | ⟨b1, b2⟩ <;> rw [a2, b2]
  · constructor
    · intro p; exact Or.inl ⟨by omega, by omega, sg (by omega) (by omega) p⟩
    · rintro (⟨_, _, p⟩ | ⟨_, _, _⟩ | ⟨_, _, _⟩ | ⟨_, _, _⟩ | _ | _ | _) <;>
        first | exact sg (by omega) (by omega) p | omega
  · refine straight _ _ (Or.inr rfl) (by omega) (by omega) _ ?_
    by_cases c1 : j = r
    · exact Or.inl ⟨by omega, by omega, my (by omega) (by omega)⟩
    · by_cases c2 : j = h - 1 - r
      · exact Or.inr (Or.inr (Or.inl ⟨by omega, by omega, my (by omega) (by omega)⟩))
      · exact Or.inr (Or.inr (Or.inr (Or.inr (Or.inr (Or.inr (⟨by omega, by omega⟩))))))
  · constructor
    · intro p
      exact Or.inr (Or.inr (Or.inl ⟨by omega, by omega, sg (by omega) (by omega) p⟩))
    · rintro (⟨_, _, _⟩ | ⟨_, _, _⟩ | ⟨_, _, p⟩ | ⟨_, _, _⟩ | _ | _ | _) <;>
        first | exact sg (by omega) (by omega) p | omega
  · refine straight _ _ (Or.inl rfl) (by omega) (by omega) _ ?_
    by_cases c1 : i = r
    · exact Or.inl ⟨by omega, by omega, mx (by omega) (by omega)⟩
    · by_cases c2 : i = w - 1 - r
      · exact Or.inr (Or.inl ⟨by omega, by omega, mx (by omega) (by omega)⟩)
      · exact Or.inr (Or.inr (Or.inr (Or.inr (Or.inl ⟨by omega, by omega, by omega⟩))))
  · refine straight _ _ (Or.inl rfl) (by omega) (by omega) _ ?_
    by_cases c3 : r + 1 ≤ j ∧ j < h - r - 1
    · exact Or.inr (Or.inr (Or.inr (Or.inr (Or.inr (Or.inr (⟨by omega, by omega⟩))))))
    · by_cases c1 : i = r
      · by_cases c2 : j = r
        · exact Or.inl ⟨by omega, by omega, mx (by omega) (by omega)⟩
        · exact Or.inr (Or.inr (Or.inl ⟨by omega, by omega, mx (by omega) (by omega)⟩))
      · by_cases c4 : i = w - 1 - r
        · by_cases c2 : j = r
          · exact Or.inr (Or.inl ⟨by omega, by omega, mx (by omega) (by omega)⟩)
          · exact Or.inr (Or.inr (Or.inr (Or.inl ⟨by omega, by omega,
              mx (by omega) (by omega)⟩)))
        · by_cases c5 : j ≤ r
          · exact Or.inr (Or.inr (Or.inr (Or.inr (Or.inl ⟨by omega, by omega, by omega⟩))))
          · exact Or.inr (Or.inr (Or.inr (Or.inr (Or.inr (Or.inl ⟨by omega, by omega, by omega⟩)))))
  · refine straight _ _ (Or.inl rfl) (by omega) (by omega) _ ?_
    by_cases c1 : i = r
    · exact Or.inr (Or.inr (Or.inl ⟨by omega, by omega, mx (by omega) (by omega)⟩))
    · by_cases c2 : i = w - 1 - r
      · exact Or.inr (Or.inr (Or.inr (Or.inl ⟨by omega, by omega, mx (by omega) (by omega)⟩)))
      · exact Or.inr (Or.inr (Or.inr (Or.inr (Or.inr (Or.inl ⟨by omega, by omega, by omega⟩)))))
  · constructor
    · intro p; exact Or.inr (Or.inl ⟨by omega, by omega, sg (by omega) (by omega) p⟩)
    · rintro (⟨_, _, _⟩ | ⟨_, _, p⟩ | ⟨_, _, _⟩ | ⟨_, _, _⟩ | _ | _ | _) <;>
        first | exact sg (by omega) (by omega) p | omega
  · refine straight _ _ (Or.inr rfl) (by omega) (by omega) _ ?_
    by_cases c1 : j = r
    · exact Or.inr (Or.inl ⟨by omega, by omega, my (by omega) (by omega)⟩)
    · by_cases c2 : j = h - 1 - r
      · exact Or.inr (Or.inr (Or.inr (Or.inl ⟨by omega, by omega, my (by omega) (by omega)⟩)))
      · exact Or.inr (Or.inr (Or.inr (Or.inr (Or.inr (Or.inr (⟨by omega, by omega⟩))))))
  · constructor
    · intro p
      exact Or.inr (Or.inr (Or.inr (Or.inl ⟨by omega, by omega, sg (by omega) (by omega) p⟩)))
    · rintro (⟨_, _, _⟩ | ⟨_, _, _⟩ | ⟨_, _, _⟩ | ⟨_, _, p⟩ | _ | _ | _) <;>
        first | exact sg (by omega) (by omega) p | omega

/-- Columns and rows as distances from the corner. -/
theorem covers_offsets {x y w h px py : Byte} {Q : Nat → Nat → Prop} :
    (∃ i j, i < w.toNat ∧ j < h.toNat ∧ px = x + BitVec.ofNat 8 i ∧ py = y + BitVec.ofNat 8 j ∧
      Q i j) ↔ (px - x).toNat < w.toNat ∧ (py - y).toNat < h.toNat ∧
        Q (px - x).toNat (py - y).toNat := by
  have e : ∀ (a : Byte) (i : Nat), i < 256 → (a + BitVec.ofNat 8 i - a).toNat = i := by
    intro a i hi
    have : (BitVec.ofNat 8 i).toNat = i := by rw [BitVec.toNat_ofNat]; omega
    generalize BitVec.ofNat 8 i = b at this ⊢
    subst this
    bv_omega
  constructor
  · rintro ⟨i, j, hi, hj, rfl, rfl, q⟩
    have := w.isLt; have := h.isLt
    rw [e x i (by omega), e y j (by omega)]
    exact ⟨hi, hj, q⟩
  · rintro ⟨hi, hj, q⟩
    refine ⟨_, _, hi, hj, ?_, ?_, q⟩
    · rw [BitVec.ofNat_toNat, BitVec.setWidth_eq]; bv_omega
    · rw [BitVec.ofNat_toNat, BitVec.setWidth_eq]; bv_omega

theorem sub_toNat {a b : Byte} (h : b.toNat ≤ a.toNat) : (a - b).toNat = a.toNat - b.toNat :=
  BitVec.toNat_sub_of_le h

theorem sub_add_eq (a b c : Byte) : a - (b + c) = a - b - c := by bv_omega

theorem straight_iff (p s n r : Byte) (hn : 2 * r.toNat + 2 ≤ n.toNat) :
    p - (s + r + 1) < n - r - r - 2 ↔
      r.toNat + 1 ≤ (p - s).toNat ∧ (p - s).toNat < n.toNat - r.toNat - 1 := by
  have one : (1 : Byte).toNat = 1 := rfl
  have two : (2 : Byte).toNat = 2 := rfl
  have e1 : p - (s + r + 1) = p - s - (r + 1) := by
    rw [BitVec.add_assoc, sub_add_eq]
  rw [e1]
  generalize p - s = a
  have hnl := n.isLt
  have k1 : (n - r).toNat = n.toNat - r.toNat := sub_toNat (by omega)
  have k2 : (n - r - r).toNat = n.toNat - r.toNat - r.toNat := by
    rw [sub_toNat (by omega), k1]
  have k3 : (n - r - r - 2).toNat = n.toNat - r.toNat - r.toNat - 2 := by
    rw [sub_toNat (by omega), k2, two]
  have k4 : (r + 1).toNat = r.toNat + 1 := by
    rw [BitVec.toNat_add, one]; omega
  rw [BitVec.lt_def, k3, BitVec.toNat_sub, k4]
  have hal := a.isLt
  generalize a.toNat = A at *
  generalize r.toNat = R at *
  generalize n.toNat = N at *
  clear k1 k2 k3 k4 e1 one two
  omega

theorem first_iff (p s : Byte) : p = s ↔ (p - s).toNat = 0 := by
  constructor
  · rintro rfl; rw [BitVec.sub_self]; rfl
  · intro h
    have : p - s = 0 := BitVec.eq_of_toNat_eq h
    rw [← BitVec.sub_add_cancel p s, this]; exact BitVec.zero_add s

theorem last_iff (p s n : Byte) (hn : 1 ≤ n.toNat) :
    p = s + (n - 1) ↔ (p - s).toNat = n.toNat - 1 := by
  have e : (n - 1).toNat = n.toNat - 1 := sub_toNat hn
  rw [← e]
  constructor
  · rintro rfl; rw [BitVec.add_comm, BitVec.add_sub_cancel]
  · intro h
    rw [← BitVec.eq_of_toNat_eq h, BitVec.add_comm, BitVec.sub_add_cancel]

theorem end_iff (p s n r : Byte) (hn : r.toNat + 1 ≤ n.toNat) (hr : r.toNat < 255) :
    p - (s + n - r - 1) < r + 1 ↔
      n.toNat - r.toNat - 1 ≤ (p - s).toNat ∧ (p - s).toNat < n.toNat := by
  have one : (1 : Byte).toNat = 1 := rfl
  have e1 : p - (s + n - r - 1) = p - s - (n - r - 1) := by
    rw [BitVec.sub_eq_add_neg (s + n) r, BitVec.sub_eq_add_neg _ 1, BitVec.add_assoc s n,
      BitVec.add_assoc s, sub_add_eq, BitVec.sub_eq_add_neg n r,
      BitVec.sub_eq_add_neg _ 1]
  rw [e1]
  generalize p - s = a
  have k1 : (n - r).toNat = n.toNat - r.toNat := sub_toNat (by omega)
  have k2 : (n - r - 1).toNat = n.toNat - r.toNat - 1 := by
    rw [sub_toNat (by omega), k1, one]
  have k4 : (r + 1).toNat = r.toNat + 1 := by
    rw [BitVec.toNat_add, one]; omega
  rw [BitVec.lt_def, k4, BitVec.toNat_sub, k2]
  have hal := a.isLt
  have hnl := n.isLt
  generalize a.toNat = A at *
  generalize r.toNat = R at *
  generalize n.toNat = N at *
  clear k1 k2 k4 e1 one
  omega

theorem begin_iff (p s r : Byte) (hr : r.toNat < 255) :
    p - s < r + 1 ↔ (p - s).toNat < r.toNat + 1 := by
  have one : (1 : Byte).toNat = 1 := rfl
  have k4 : (r + 1).toNat = r.toNat + 1 := by
    rw [BitVec.toNat_add, one]; omega
  rw [BitVec.lt_def, k4]

theorem draws_rframe {u} (hu : Ready u) (x y w h r : Byte) (hr : r ≤ 76)
    (hw : 2 * r.toNat + 2 ≤ w.toNat) (hh : 2 * r.toNat + 2 ≤ h.toNat) :
    Draws u (drawRFrame u x y w h r) (Covers (.rframe x y w h r)) := by
  unfold drawRFrame
  by_cases hi : isBBXIntersection u x y w h = true
  · rw [if_pos hi]
    have d1 := draws_circleRaw hu (x + r) (y + r) r 0x02 hr
    have r1 := d1.ready hu
    have d2 := d1.trans (draws_circleRaw r1 (x + w - r - 1) (y + r) r 0x01 hr)
    have r2 := d2.ready hu
    have d3 := d2.trans (draws_circleRaw r2 (x + r) (y + h - r - 1) r 0x04 hr)
    have r3 := d3.ready hu
    have d4 := d3.trans (draws_circleRaw r3 (x + w - r - 1) (y + h - r - 1) r 0x08 hr)
    have r4 := d4.ready hu
    have d5 := d4.trans (draws_hline r4 (x + r + 1) y (w - r - r - 2))
    have r5 := d5.ready hu
    have d6 := d5.trans (draws_hline r5 (x + r + 1) (y + (h - 1)) (w - r - r - 2))
    have r6 := d6.ready hu
    have d7 := d6.trans (draws_vline r6 x (y + r + 1) (h - r - r - 2))
    have r7 := d7.ready hu
    have d8 := d7.trans (draws_vline r7 (x + (w - 1)) (y + r + 1) (h - r - r - 2))
    refine d8.congr fun px py _ => ?_
    obtain ⟨q1, q2, q3, q4⟩ := quarters (x := x) (y := y) (w := w) (h := h) (px := px) (py := py)
      (round_circle r.toNat) (by omega) (by omega) rfl rfl
    simp only [Covers, covers_offsets, q1, q2, q3, q4]
    rw [straight_iff px x w r hw, straight_iff py y h r hh, first_iff py y,
      last_iff py y h (by omega), first_iff px x, last_iff px x w (by omega)]
    have hb : ∀ {a b : Int}, OnCircle r.toNat a b → a.natAbs ≤ r.toNat ∧ b.natAbs ≤ r.toNat :=
      onCircle_bound
    generalize (px - x).toNat = i
    generalize (py - y).toNat = j
    constructor
    · intro hc
      have inside : i < w.toNat ∧ j < h.toNat := by
        rcases hc with ((((((⟨_, _, p⟩ | ⟨_, _, p⟩) | ⟨_, _, p⟩) | ⟨_, _, p⟩) | _) | _) | _) | _ <;>
          first | omega | (have := hb p; omega)
      refine ⟨inside.1, inside.2, (rframe_iff hw hh inside.1 inside.2).2 ?_⟩
      rcases hc with ((((((p | p) | p) | p) | p) | p) | p) | p
      · exact Or.inl p
      · exact Or.inr (Or.inl p)
      · exact Or.inr (Or.inr (Or.inl p))
      · exact Or.inr (Or.inr (Or.inr (Or.inl p)))
      · exact Or.inr (Or.inr (Or.inr (Or.inr (Or.inl ⟨by omega, by omega, by omega⟩))))
      · exact Or.inr (Or.inr (Or.inr (Or.inr (Or.inr (Or.inl ⟨by omega, by omega, by omega⟩)))))
      · exact Or.inr (Or.inr (Or.inr (Or.inr (Or.inr (Or.inr (Or.inl ⟨by omega, by omega, by omega⟩))))))
      · exact Or.inr (Or.inr (Or.inr (Or.inr (Or.inr (Or.inr (Or.inr (⟨by omega, by omega, by omega⟩)))))))
    · rintro ⟨h1, h2, hc⟩
      rcases (rframe_iff hw hh h1 h2).1 hc with p | p | p | p | p | p | p | p
      · exact Or.inl (Or.inl (Or.inl (Or.inl (Or.inl (Or.inl (Or.inl p))))))
      · exact Or.inl (Or.inl (Or.inl (Or.inl (Or.inl (Or.inl (Or.inr p))))))
      · exact Or.inl (Or.inl (Or.inl (Or.inl (Or.inl (Or.inr p)))))
      · exact Or.inl (Or.inl (Or.inl (Or.inl (Or.inr p))))
      · exact Or.inl (Or.inl (Or.inl (Or.inr ⟨by omega, by omega, by omega⟩)))
      · exact Or.inl (Or.inl (Or.inr ⟨by omega, by omega, by omega⟩))
      · exact Or.inl (Or.inr ⟨by omega, by omega, by omega⟩)
      · exact Or.inr ⟨by omega, by omega, by omega⟩
  · rw [if_neg hi]
    refine Draws.refl u ?_
    rintro px py ho hc
    simp only [Covers, covers_offsets] at hc
    have w0 : w ≠ 0 := by bv_omega
    have h0 : h ≠ 0 := by bv_omega
    exact clip hu w0 h0 (by simpa using hi) ho ⟨hc.1, hc.2.1⟩

theorem draws_rbox {u} (hu : Ready u) (x y w h r : Byte) (hr : r ≤ 76)
    (hw : 2 * r.toNat + 2 ≤ w.toNat) (hh : 2 * r.toNat + 3 ≤ h.toNat) :
    Draws u (drawRBox u x y w h r) (Covers (.rbox x y w h r)) := by
  unfold drawRBox
  by_cases hi : isBBXIntersection u x y w h = true
  · rw [if_pos hi]
    have h76 : r.toNat ≤ 76 := hr
    have d1 := draws_discRaw hu (x + r) (y + r) r 0x02 hr
    have r1 := d1.ready hu
    have d2 := d1.trans (draws_discRaw r1 (x + w - r - 1) (y + r) r 0x01 hr)
    have r2 := d2.ready hu
    have d3 := d2.trans (draws_discRaw r2 (x + r) (y + h - r - 1) r 0x04 hr)
    have r3 := d3.ready hu
    have d4 := d3.trans (draws_discRaw r3 (x + w - r - 1) (y + h - r - 1) r 0x08 hr)
    have r4 := d4.ready hu
    have d5 := d4.trans (draws_boxRaw r4 (x + r + 1) y (w - r - r - 2) (r + 1) (by bv_omega))
    have r5 := d5.ready hu
    have d6 := d5.trans (draws_boxRaw r5 (x + r + 1) (y + h - r - 1) (w - r - r - 2) (r + 1)
      (by bv_omega))
    have r6 := d6.ready hu
    have d7 := d6.trans (draws_boxRaw r6 x (y + r + 1) w (h - r - r - 2) (by bv_omega))
    refine d7.congr fun px py _ => ?_
    obtain ⟨q1, q2, q3, q4⟩ := quarters (x := x) (y := y) (w := w) (h := h) (px := px) (py := py)
      (round_disc r.toNat) (by omega) (by omega) rfl rfl
    simp only [Covers, covers_offsets, q1, q2, q3, q4]
    have l5 : px - x < w ↔ (px - x).toNat < w.toNat := Iff.rfl
    rw [straight_iff px x w r hw, straight_iff py y h r (by omega), begin_iff py y r (by omega),
      end_iff py y h r (by omega) (by omega), l5]
    have hb : ∀ {a b : Int}, InDisc r.toNat a b → a.natAbs ≤ r.toNat ∧ b.natAbs ≤ r.toNat :=
      inDisc_bound
    have hh' : 2 * r.toNat + 2 ≤ h.toNat := by omega
    generalize (px - x).toNat = i
    generalize (py - y).toNat = j
    constructor
    · intro hc
      have inside : i < w.toNat ∧ j < h.toNat := by
        rcases hc with (((((⟨_, _, p⟩ | ⟨_, _, p⟩) | ⟨_, _, p⟩) | ⟨_, _, p⟩) | _) | _) | _ <;>
          first | omega | (have := hb p; omega)
      refine ⟨inside.1, inside.2, (rbox_iff hw hh' inside.1 inside.2).2 ?_⟩
      rcases hc with (((((p | p) | p) | p) | p) | p) | p
      · exact Or.inl p
      · exact Or.inr (Or.inl p)
      · exact Or.inr (Or.inr (Or.inl p))
      · exact Or.inr (Or.inr (Or.inr (Or.inl p)))
      · exact Or.inr (Or.inr (Or.inr (Or.inr (Or.inl ⟨by omega, by omega, by omega⟩))))
      · exact Or.inr (Or.inr (Or.inr (Or.inr (Or.inr (Or.inl ⟨by omega, by omega, by omega⟩)))))
      · exact Or.inr (Or.inr (Or.inr (Or.inr (Or.inr (Or.inr (⟨by omega, by omega⟩))))))
    · rintro ⟨h1, h2, hc⟩
      rcases (rbox_iff hw hh' h1 h2).1 hc with p | p | p | p | p | p | p
      · exact Or.inl (Or.inl (Or.inl (Or.inl (Or.inl (Or.inl p)))))
      · exact Or.inl (Or.inl (Or.inl (Or.inl (Or.inl (Or.inr p)))))
      · exact Or.inl (Or.inl (Or.inl (Or.inl (Or.inr p))))
      · exact Or.inl (Or.inl (Or.inl (Or.inr p)))
      · exact Or.inl (Or.inl (Or.inr ⟨⟨by omega, by omega⟩, by omega⟩))
      · exact Or.inl (Or.inr ⟨⟨by omega, by omega⟩, by omega, by omega⟩)
      · exact Or.inr ⟨by omega, by omega, by omega⟩
  · rw [if_neg hi]
    refine Draws.refl u ?_
    rintro px py ho hc
    simp only [Covers, covers_offsets] at hc
    have w0 : w ≠ 0 := by bv_omega
    have h0 : h ≠ 0 := by bv_omega
    exact clip hu w0 h0 (by simpa using hi) ho ⟨hc.1, hc.2.1⟩

end Verif.U8g
