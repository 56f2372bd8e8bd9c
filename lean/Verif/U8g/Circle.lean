import Verif.U8g.Figures
import Verif.U8g.Spec
import Mathlib.Tactic.Linarith
import Mathlib.Tactic.Ring

/-!
# Circles and discs (lemmas for C118)
-/

namespace Verif.U8g

/-- The point of the first part is the one nearest to the circle in its column. -/
def Near (r x y : Int) : Prop := (y = 0 ∨ y * y - y < r * r - x * x) ∧ r * r - x * x ≤ y * y + y

/-- The decision value of the loop, as a whole number. -/
def mid (r x y : Int) : Int := (x + 1) * (x + 1) + y * y - y - r * r

theorem near_zero {r x y : Int} (hx : 0 ≤ x) (hxy : x < y) (h : Near r x y) :
    y * y - y < r * r - x * x := by
  rcases h.1 with h | h
  · omega
  · exact h

theorem mid_upper {r x y : Int} (hx : 0 ≤ x) (hxy : x < y) (h : Near r x y) :
    mid r x y ≤ 2 * x := by
  have := near_zero hx hxy h
  unfold mid
  nlinarith

theorem mid_lower {r x y : Int} (h : Near r x y) : 2 * x + 1 - 2 * y ≤ mid r x y := by
  have := h.2
  unfold mid
  nlinarith

theorem near_le {r x y : Int} (hr : 0 ≤ r) (hx : 0 ≤ x) (hxy : x < y) (h : Near r x y) :
    y ≤ r := by
  have h1 := near_zero hx hxy h
  by_contra hc
  have : r + 1 ≤ y := by omega
  nlinarith

/-- With a radius of at most 76 the decision value fits into eight bits. -/
theorem mid_range {r x y : Int} (hr : 0 ≤ r) (hr76 : r ≤ 76) (hx : 0 ≤ x) (hxy : x < y)
    (h : Near r x y) : -128 ≤ mid r x y ∧ mid r x y ≤ 127 := by
  have hyr := near_le hr hx hxy h
  have hl := mid_lower h
  have hu := mid_upper hx hxy h
  have h1 := near_zero hx hxy h
  have h2 := h.2
  constructor
  · by_contra hc
    have hc' : mid r x y ≤ -129 := by omega
    have hy : x + 65 ≤ y := by omega
    have hx11 : x ≤ 11 := by omega
    unfold mid at hc'
    by_cases e : y = r
    · subst e; nlinarith
    · have e1 : y ≤ r - 1 := by omega
      have hx9 : 9 ≤ x := by
        by_contra hq
        have : x ≤ 8 := by omega
        nlinarith
      have c1 : y = 74 ∨ y = 75 := by omega
      have c2 : r = 75 ∨ r = 76 := by omega
      have c3 : x = 9 ∨ x = 10 ∨ x = 11 := by omega
      rcases c1 with rfl | rfl <;> rcases c2 with rfl | rfl <;>
        rcases c3 with rfl | rfl | rfl <;> omega
  · have : x ≤ 63 := by
      by_contra hc
      have : 64 ≤ x := by omega
      nlinarith
    omega

theorem near_step_keep {r x y : Int} (hx : 0 ≤ x) (hxy : x < y) (h : Near r x y)
    (hf : mid r x y < 0) : Near r (x + 1) y := by
  unfold mid at hf
  refine ⟨Or.inr (by nlinarith), ?_⟩
  have := h.2
  nlinarith

theorem near_step_down {r x y : Int} (hx : 0 ≤ x) (hxy : x + 1 < y) (h : Near r x y)
    (hf : 0 ≤ mid r x y) : Near r (x + 1) (y - 1) := by
  have h1 := near_zero hx (by omega) h
  unfold mid at hf
  exact ⟨Or.inr (by nlinarith), by nlinarith⟩

theorem near_unique {r x y y' : Int} (hy : 0 ≤ y) (hy' : 0 ≤ y') (h : Near r x y)
    (h' : Near r x y') : y = y' := by
  have aux : ∀ a b : Int, 0 ≤ a → 0 ≤ b → Near r x a → Near r x b → ¬ a < b := by
    intro a b ha hb h1 h2 hlt
    have h3 := h1.2
    rcases h2.1 with h4 | h4
    · omega
    · have : a + 1 ≤ b := by omega
      nlinarith
  have := aux y y' hy hy' h h'
  have := aux y' y hy' hy h' h
  omega

theorem near_antitone {r x y a b : Int} (hx : 0 ≤ x) (hy : 0 ≤ y) (hxa : x ≤ a) (hb : 0 ≤ b)
    (h : Near r x y) (h' : Near r a b) : b ≤ y := by
  by_contra hc
  have h3 := h.2
  rcases h'.1 with h4 | h4
  · omega
  · have : y + 1 ≤ b := by omega
    nlinarith


theorem slt_mid {m : Int} (h1 : -128 ≤ m) (h2 : m ≤ 127) :
    (BitVec.ofInt 8 m).slt 0 = decide (m < 0) := by
  have : (BitVec.ofInt 8 m).toInt = m := by
    rw [BitVec.toInt_ofInt]
    have hp : ((2 ^ 8 : Nat) : Int) = 256 := rfl
    simp only [Int.bmod, hp]
    split <;> omega
  unfold BitVec.slt
  rw [this]
  rfl

theorem mid_keep (r x y : Int) : mid r (x + 1) y = mid r x y + (2 * x + 1 + 2) := by
  unfold mid; ring

theorem mid_down (r x y : Int) :
    mid r (x + 1) (y - 1) = mid r x y + (-2 * y + 2) + (2 * x + 1 + 2) := by
  unfold mid; ring

/-- What the loop yields: points nearest to the circle, and all of them. -/
theorem circleSteps_spec {r : Nat} (hr : r ≤ 76) :
    ∀ (n : Nat) (x y f ddfX ddfY : Byte), x.toNat ≤ y.toNat → y.toNat - x.toNat ≤ n →
      Near r x.toNat y.toNat → f = BitVec.ofInt 8 (mid r x.toNat y.toNat) →
      ddfX = BitVec.ofInt 8 (2 * x.toNat + 1) → ddfY = BitVec.ofInt 8 (-2 * y.toNat) →
      (∀ p ∈ circleSteps n x y f ddfX ddfY,
        (p.1.toNat ≤ p.2.toNat ∧ Near r p.1.toNat p.2.toNat) ∨
        (p.2.toNat ≤ p.1.toNat ∧ Near r p.2.toNat p.1.toNat)) ∧
      (∀ a b : Byte, x.toNat ≤ a.toNat → a.toNat ≤ b.toNat → Near r a.toNat b.toNat →
        (a, b) ∈ circleSteps n x y f ddfX ddfY) := by
  intro n
  induction n with
  | zero =>
    intro x y f ddfX ddfY hxy hn hnear hf hX hY
    have e : x.toNat = y.toNat := by omega
    refine ⟨?_, ?_⟩
    · intro p hp
      simp only [circleSteps, List.mem_singleton] at hp
      subst hp
      exact Or.inl ⟨hxy, hnear⟩
    · intro a b h1 h2 h3
      have h4 := near_antitone (by omega) (by omega) (by omega) (by omega) hnear h3
      have ha : a = x := BitVec.eq_of_toNat_eq (by omega)
      have hb : b = y := BitVec.eq_of_toNat_eq (by omega)
      rw [ha, hb]
      simp [circleSteps]
  | succ n ih =>
    intro x y f ddfX ddfY hxy hn hnear hf hX hY
    have hyl := y.isLt
    have same : ∀ a b : Byte, a.toNat = x.toNat → Near r a.toNat b.toNat → (a, b) = (x, y) := by
      intro a b h1 h3
      rw [h1] at h3
      have h4 := near_unique (by omega) (by omega) hnear h3
      rw [BitVec.eq_of_toNat_eq h1, BitVec.eq_of_toNat_eq (show b.toNat = y.toNat by omega)]
    rw [circleSteps]
    by_cases hlt : x < y
    · have hlt' : x.toNat < y.toNat := hlt
      have hx1 : (x + 1).toNat = x.toNat + 1 := by bv_omega
      have hx1i : ((x + 1).toNat : Int) = x.toNat + 1 := by omega
      have hrange := mid_range (r := r) (by omega) (by omega) (by omega) (by omega) hnear
      have hsl : f.slt 0 = decide (mid r x.toNat y.toNat < 0) := by
        rw [hf]; exact slt_mid hrange.1 hrange.2
      have two : (2 : Byte) = BitVec.ofInt 8 2 := rfl
      have hX' : ddfX + 2 = BitVec.ofInt 8 (2 * x.toNat + 1 + 2) := by
        rw [hX, two, ← BitVec.ofInt_add]
      have hX2 : ddfX + 2 = BitVec.ofInt 8 (2 * ((x + 1).toNat : Int) + 1) := by
        rw [hX', hx1i]; congr 1
      rw [if_pos hlt]
      by_cases hneg : mid r x.toNat y.toNat < 0
      · have hs1 : f.slt 0 = true := by rw [hsl]; exact decide_eq_true hneg
        rw [if_pos hs1]
        obtain ⟨i1, i2⟩ := ih (x + 1) y (f + (ddfX + 2)) (ddfX + 2) ddfY (by omega) (by omega)
          (by rw [hx1i]; exact near_step_keep (by omega) (by omega) hnear hneg)
          (by rw [hx1i, mid_keep, hf, hX', ← BitVec.ofInt_add]) hX2 hY
        refine ⟨?_, ?_⟩
        · intro p hp
          rcases List.mem_cons.1 hp with rfl | hp
          · exact Or.inl ⟨hxy, hnear⟩
          · exact i1 p hp
        · intro a b h1 h2 h3
          by_cases e : a.toNat = x.toNat
          · rw [same a b e h3]; exact List.mem_cons_self
          · exact List.mem_cons_of_mem _ (i2 a b (by omega) h2 h3)
      · have hs0 : ¬ f.slt 0 = true := by rw [hsl, decide_eq_false hneg]; exact Bool.false_ne_true
        rw [if_neg hs0]
        have hy1 : (y - 1).toNat = y.toNat - 1 := by bv_omega
        have hy1i : ((y - 1).toNat : Int) = y.toNat - 1 := by omega
        by_cases hover : x.toNat + 1 < y.toNat
        · have hY' : ddfY + 2 = BitVec.ofInt 8 (-2 * y.toNat + 2) := by
            rw [hY, two, ← BitVec.ofInt_add]
          obtain ⟨i1, i2⟩ := ih (x + 1) (y - 1) (f + (ddfY + 2) + (ddfX + 2)) (ddfX + 2) (ddfY + 2)
            (by omega) (by omega)
            (by rw [hx1i, hy1i]; exact near_step_down (by omega) (by omega) hnear (by omega))
            (by rw [hx1i, hy1i, mid_down, hf, hX', hY', ← BitVec.ofInt_add, ← BitVec.ofInt_add])
            hX2 (by rw [hY', hy1i]; congr 1; ring)
          refine ⟨?_, ?_⟩
          · intro p hp
            rcases List.mem_cons.1 hp with rfl | hp
            · exact Or.inl ⟨hxy, hnear⟩
            · exact i1 p hp
          · intro a b h1 h2 h3
            by_cases e : a.toNat = x.toNat
            · rw [same a b e h3]; exact List.mem_cons_self
            · exact List.mem_cons_of_mem _ (i2 a b (by omega) h2 h3)
        · have hnl : ¬ x + 1 < y - 1 := by bv_omega
          have hlast : circleSteps n (x + 1) (y - 1) (f + (ddfY + 2) + (ddfX + 2)) (ddfX + 2)
              (ddfY + 2) = [(x + 1, y - 1)] := by
            cases n with
            | zero => rfl
            | succ n => rw [circleSteps, if_neg hnl]
          rw [hlast]
          refine ⟨?_, ?_⟩
          · intro p hp
            rcases List.mem_cons.1 hp with rfl | hp
            · exact Or.inl ⟨hxy, hnear⟩
            · rw [List.mem_singleton] at hp
              subst hp
              right
              have e1 : (x + 1).toNat = y.toNat := by omega
              have e2 : (y - 1).toNat = x.toNat := by omega
              simp only [e1, e2]
              exact ⟨hxy, hnear⟩
          · intro a b h1 h2 h3
            by_cases e : a.toNat = x.toNat
            · rw [same a b e h3]; exact List.mem_cons_self
            · exfalso
              have hb : (b.toNat : Int) = 0 ∨ _ := h3.1
              unfold mid at hneg
              have h5 : (y.toNat : Int) = x.toNat + 1 := by omega
              rcases hb with hb | hb
              · omega
              · have h6 : (y.toNat : Int) ≤ a.toNat := by omega
                have h7 : (a.toNat : Int) ≤ b.toNat := by omega
                rw [← h5] at hneg
                nlinarith
    · rw [if_neg hlt]
      have e : x.toNat = y.toNat := by bv_omega
      refine ⟨?_, ?_⟩
      · intro p hp
        rw [List.mem_singleton] at hp
        subst hp
        exact Or.inl ⟨hxy, hnear⟩
      · intro a b h1 h2 h3
        have h4 := near_antitone (by omega) (by omega) (by omega) (by omega) hnear h3
        rw [same a b (by omega) h3]
        exact List.mem_cons_self

theorem near_start (r : Nat) : Near r (0 : Nat) r := by
  refine ⟨?_, ?_⟩
  · by_cases h : r = 0
    · left; omega
    · right
      have : (1 : Int) ≤ r := by omega
      simp; omega
  · simp

/-- The points in the first part are exactly the ones nearest to the circle. -/
theorem circleStart_spec {rad : Byte} (hr : rad ≤ 76) :
    (∀ p ∈ circleStart rad,
      (p.1.toNat ≤ p.2.toNat ∧ Near rad.toNat p.1.toNat p.2.toNat) ∨
      (p.2.toNat ≤ p.1.toNat ∧ Near rad.toNat p.2.toNat p.1.toNat)) ∧
    (∀ a b : Byte, a.toNat ≤ b.toNat → Near rad.toNat a.toNat b.toNat →
      (a, b) ∈ circleStart rad) := by
  have h76 : rad.toNat ≤ 76 := hr
  have hneg : (0 : Byte) - rad = BitVec.ofInt 8 (-rad.toNat) := by
    apply BitVec.eq_of_toNat_eq
    simp only [BitVec.toNat_sub, BitVec.toNat_ofInt]
    simp
    omega
  obtain ⟨h1, h2⟩ := circleSteps_spec h76 255 0 rad (1 - rad) 1 ((0 - rad) * 2)
    (Nat.zero_le _) (by have := rad.isLt; omega) (near_start rad.toNat)
    (by
      have e : (1 : Byte) - rad = 1 + (0 - rad) := by bv_omega
      have one : (1 : Byte) = BitVec.ofInt 8 1 := rfl
      rw [e, hneg, one, ← BitVec.ofInt_add]
      congr 1
      unfold mid
      simp
      ring)
    rfl
    (by
      have two : (2 : Byte) = BitVec.ofInt 8 2 := rfl
      rw [hneg, two, ← BitVec.ofInt_mul]
      congr 1
      ring)
  exact ⟨h1, fun a b hab hn => h2 a b (Nat.zero_le _) hab hn⟩

/-! ## From the first part to the whole circle -/

theorem onCircle_near (r : Nat) (dx dy : Int) :
    OnCircle r dx dy ↔ (dx.natAbs ≤ dy.natAbs ∧ Near r dx.natAbs dy.natAbs) ∨
      (dy.natAbs ≤ dx.natAbs ∧ Near r dy.natAbs dx.natAbs) := by
  unfold OnCircle Near
  by_cases h : dx.natAbs ≤ dy.natAbs
  · have h1 : min dx.natAbs dy.natAbs = dx.natAbs := Nat.min_eq_left h
    have h2 : max dx.natAbs dy.natAbs = dy.natAbs := Nat.max_eq_right h
    by_cases he : dy.natAbs ≤ dx.natAbs
    · have : dx.natAbs = dy.natAbs := by omega
      simp [this]
    · simp only [← Nat.cast_min, ← Nat.cast_max, h1, h2]
      simp [h, he]
  · have h' : dy.natAbs ≤ dx.natAbs := by omega
    have h1 : min dx.natAbs dy.natAbs = dy.natAbs := Nat.min_eq_right h'
    have h2 : max dx.natAbs dy.natAbs = dx.natAbs := Nat.max_eq_left h'
    simp only [← Nat.cast_min, ← Nat.cast_max, h1, h2]
    simp [h, h']

theorem inDisc_cases (r : Nat) (dx dy : Int) :
    InDisc r dx dy ↔
      (dx.natAbs ≤ dy.natAbs ∧ ((dy.natAbs : Int) = 0 ∨
        (dy.natAbs : Int) * dy.natAbs - dy.natAbs < r * r - (dx.natAbs : Int) * dx.natAbs)) ∨
      (dy.natAbs < dx.natAbs ∧
        (dx.natAbs : Int) * dx.natAbs - dx.natAbs < r * r - (dy.natAbs : Int) * dy.natAbs) := by
  unfold InDisc
  by_cases h : dx.natAbs ≤ dy.natAbs
  · have h1 : min dx.natAbs dy.natAbs = dx.natAbs := Nat.min_eq_left h
    have h2 : max dx.natAbs dy.natAbs = dy.natAbs := Nat.max_eq_right h
    simp only [← Nat.cast_min, ← Nat.cast_max, h1, h2]
    constructor
    · intro q; exact Or.inl ⟨h, q⟩
    · rintro (q | q)
      · exact q.2
      · omega
  · have h' : dy.natAbs ≤ dx.natAbs := by omega
    have h1 : min dx.natAbs dy.natAbs = dy.natAbs := Nat.min_eq_right h'
    have h2 : max dx.natAbs dy.natAbs = dx.natAbs := Nat.max_eq_left h'
    simp only [← Nat.cast_min, ← Nat.cast_max, h1, h2]
    constructor
    · rintro (q | q)
      · omega
      · exact Or.inr ⟨by omega, q⟩
    · rintro (q | q)
      · omega
      · exact Or.inr q.2

theorem ofInt_nat (a : Byte) : BitVec.ofInt 8 (a.toNat : Int) = a := by
  apply BitVec.eq_of_toNat_eq
  simp

theorem ofInt_neg_nat (a : Byte) : BitVec.ofInt 8 (-(a.toNat : Int)) = -a := by
  rw [BitVec.ofInt_neg, ofInt_nat]

theorem opt_bits (opt : Byte) : (opt &&& 0x01 ≠ 0 ↔ opt.getLsbD 0 = true) ∧
    (opt &&& 0x02 ≠ 0 ↔ opt.getLsbD 1 = true) ∧ (opt &&& 0x04 ≠ 0 ↔ opt.getLsbD 2 = true) ∧
    (opt &&& 0x08 ≠ 0 ↔ opt.getLsbD 3 = true) := by
  revert opt
  decide +kernel

theorem mem_ite {α : Type} {c : Prop} [Decidable c] (a b q : α) :
    q ∈ (if c then [a, b] else []) ↔ c ∧ (q = a ∨ q = b) := by
  by_cases h : c <;> simp [h]

theorem sub_neg (a b : Byte) : a - b = a + -b := by bv_omega

theorem mem_circleSection (x0 y0 opt px py : Byte) (s : Byte × Byte) :
    (px, py) ∈ circleSection x0 y0 opt s ↔
      ∃ dx dy : Int, px = x0 + BitVec.ofInt 8 dx ∧ py = y0 + BitVec.ofInt 8 dy ∧
        ((dx.natAbs = s.1.toNat ∧ dy.natAbs = s.2.toNat) ∨
          (dx.natAbs = s.2.toNat ∧ dy.natAbs = s.1.toNat)) ∧ Chosen opt dx dy := by
  obtain ⟨o1, o2, o3, o4⟩ := opt_bits opt
  obtain ⟨a, b⟩ := s
  unfold circleSection
  simp only [List.mem_append, mem_ite, Prod.mk.injEq, o1, o2, o3, o4]
  constructor
  · rintro (((⟨h, ⟨rfl, rfl⟩ | ⟨rfl, rfl⟩⟩ | ⟨h, ⟨rfl, rfl⟩ | ⟨rfl, rfl⟩⟩) |
      ⟨h, ⟨rfl, rfl⟩ | ⟨rfl, rfl⟩⟩) | ⟨h, ⟨rfl, rfl⟩ | ⟨rfl, rfl⟩⟩)
    · exact ⟨a.toNat, -b.toNat, by rw [ofInt_nat], by rw [ofInt_neg_nat, sub_neg],
        Or.inl ⟨by omega, by omega⟩, Or.inl ⟨h, by omega, by omega⟩⟩
    · exact ⟨b.toNat, -a.toNat, by rw [ofInt_nat], by rw [ofInt_neg_nat, sub_neg],
        Or.inr ⟨by omega, by omega⟩, Or.inl ⟨h, by omega, by omega⟩⟩
    · exact ⟨-a.toNat, -b.toNat, by rw [ofInt_neg_nat, sub_neg], by rw [ofInt_neg_nat, sub_neg],
        Or.inl ⟨by omega, by omega⟩, Or.inr (Or.inl ⟨h, by omega, by omega⟩)⟩
    · exact ⟨-b.toNat, -a.toNat, by rw [ofInt_neg_nat, sub_neg], by rw [ofInt_neg_nat, sub_neg],
        Or.inr ⟨by omega, by omega⟩, Or.inr (Or.inl ⟨h, by omega, by omega⟩)⟩
    · exact ⟨a.toNat, b.toNat, by rw [ofInt_nat], by rw [ofInt_nat],
        Or.inl ⟨by omega, by omega⟩, Or.inr (Or.inr (Or.inr ⟨h, by omega, by omega⟩))⟩
    · exact ⟨b.toNat, a.toNat, by rw [ofInt_nat], by rw [ofInt_nat],
        Or.inr ⟨by omega, by omega⟩, Or.inr (Or.inr (Or.inr ⟨h, by omega, by omega⟩))⟩
    · exact ⟨-a.toNat, b.toNat, by rw [ofInt_neg_nat, sub_neg], by rw [ofInt_nat],
        Or.inl ⟨by omega, by omega⟩, Or.inr (Or.inr (Or.inl ⟨h, by omega, by omega⟩))⟩
    · exact ⟨-b.toNat, a.toNat, by rw [ofInt_neg_nat, sub_neg], by rw [ofInt_nat],
        Or.inr ⟨by omega, by omega⟩, Or.inr (Or.inr (Or.inl ⟨h, by omega, by omega⟩))⟩
  · rintro ⟨dx, dy, rfl, rfl, hab, hc⟩
    have pos : ∀ (d : Int) (c : Byte), 0 ≤ d → d.natAbs = c.toNat → BitVec.ofInt 8 d = c := by
      intro d c h1 h2
      have : d = (c.toNat : Int) := by omega
      rw [this, ofInt_nat]
    have neg : ∀ (d : Int) (c : Byte), d ≤ 0 → d.natAbs = c.toNat → BitVec.ofInt 8 d = -c := by
      intro d c h1 h2
      have : d = -(c.toNat : Int) := by omega
      rw [this, ofInt_neg_nat]
    rcases hc with ⟨h, h1, h2⟩ | ⟨h, h1, h2⟩ | ⟨h, h1, h2⟩ | ⟨h, h1, h2⟩
    · refine Or.inl (Or.inl (Or.inl ⟨h, ?_⟩))
      rcases hab with ⟨e1, e2⟩ | ⟨e1, e2⟩
      · rw [pos dx a h1 e1, neg dy b h2 e2, sub_neg]; exact Or.inl ⟨rfl, rfl⟩
      · rw [pos dx b h1 e1, neg dy a h2 e2, sub_neg y0 a]; exact Or.inr ⟨rfl, rfl⟩
    · refine Or.inl (Or.inl (Or.inr ⟨h, ?_⟩))
      rcases hab with ⟨e1, e2⟩ | ⟨e1, e2⟩
      · rw [neg dx a h1 e1, neg dy b h2 e2, sub_neg x0 a, sub_neg y0 b]; exact Or.inl ⟨rfl, rfl⟩
      · rw [neg dx b h1 e1, neg dy a h2 e2, sub_neg x0 b, sub_neg y0 a]; exact Or.inr ⟨rfl, rfl⟩
    · refine Or.inr ⟨h, ?_⟩
      rcases hab with ⟨e1, e2⟩ | ⟨e1, e2⟩
      · rw [neg dx a h1 e1, pos dy b h2 e2, sub_neg x0 a]; exact Or.inl ⟨rfl, rfl⟩
      · rw [neg dx b h1 e1, pos dy a h2 e2, sub_neg x0 b]; exact Or.inr ⟨rfl, rfl⟩
    · refine Or.inl (Or.inr ⟨h, ?_⟩)
      rcases hab with ⟨e1, e2⟩ | ⟨e1, e2⟩
      · rw [pos dx a h1 e1, pos dy b h2 e2]; exact Or.inl ⟨rfl, rfl⟩
      · rw [pos dx b h1 e1, pos dy a h2 e2]; exact Or.inr ⟨rfl, rfl⟩

theorem near_bound {r x y : Nat} (hxy : x ≤ y) (h : Near r x y) : y ≤ r := by
  rcases h.1 with h1 | h1
  · omega
  · by_contra hc
    have : (r : Int) + 1 ≤ y := by omega
    nlinarith

theorem byte_of (n : Nat) (h : n ≤ 255) : ∃ b : Byte, b.toNat = n :=
  ⟨BitVec.ofNat 8 n, by rw [BitVec.toNat_ofNat]; omega⟩

/-- The points of the loop, mirrored, are the circle. -/
theorem circle_points {rad : Byte} (hr : rad ≤ 76) (dx dy : Int) :
    (∃ s ∈ circleStart rad, (dx.natAbs = s.1.toNat ∧ dy.natAbs = s.2.toNat) ∨
      (dx.natAbs = s.2.toNat ∧ dy.natAbs = s.1.toNat)) ↔ OnCircle rad.toNat dx dy := by
  obtain ⟨c1, c2⟩ := circleStart_spec hr
  have h76 : rad.toNat ≤ 76 := hr
  rw [onCircle_near]
  constructor
  · rintro ⟨s, hs, ⟨e1, e2⟩ | ⟨e1, e2⟩⟩
    · rw [e1, e2]; exact c1 s hs
    · rw [e1, e2]; exact (c1 s hs).symm
  · rintro (⟨h1, h2⟩ | ⟨h1, h2⟩)
    · have hb := near_bound h1 h2
      obtain ⟨a, ha⟩ := byte_of dx.natAbs (by omega)
      obtain ⟨b, hb⟩ := byte_of dy.natAbs (by omega)
      rw [← ha, ← hb] at h1 h2
      exact ⟨(a, b), c2 a b h1 h2, Or.inl ⟨ha.symm, hb.symm⟩⟩
    · have hb := near_bound h1 h2
      obtain ⟨a, ha⟩ := byte_of dx.natAbs (by omega)
      obtain ⟨b, hb⟩ := byte_of dy.natAbs (by omega)
      rw [← ha, ← hb] at h1 h2
      exact ⟨(b, a), c2 b a h1 h2, Or.inr ⟨ha.symm, hb.symm⟩⟩

theorem onCircle_bound {r : Nat} {dx dy : Int} (h : OnCircle r dx dy) :
    dx.natAbs ≤ r ∧ dy.natAbs ≤ r := by
  rcases (onCircle_near r dx dy).1 h with ⟨h1, h2⟩ | ⟨h1, h2⟩ <;>
    have := near_bound h1 h2 <;> omega

theorem inDisc_bound {r : Nat} {dx dy : Int} (h : InDisc r dx dy) :
    dx.natAbs ≤ r ∧ dy.natAbs ≤ r := by
  have aux : ∀ a b : Nat, a ≤ b → (b : Int) * b - b < r * r - (a : Int) * a → b ≤ r := by
    intro a b hab h
    by_contra hc
    have : (r : Int) + 1 ≤ b := by omega
    nlinarith
  rcases (inDisc_cases r dx dy).1 h with ⟨h1, h2 | h2⟩ | ⟨h1, h2⟩
  · omega
  · have := aux _ _ h1 h2; omega
  · have := aux _ _ (Nat.le_of_lt h1) h2; omega

/-- A point not further away than the radius lies in the box that the clipping test looks at. -/
theorem in_box {x0 rad : Byte} (hr : rad ≤ 76) {d : Int} (hd : d.natAbs ≤ rad.toNat) :
    x0 + BitVec.ofInt 8 d - (x0 - (rad + 1)) < (rad + 1) * 2 := by
  have h76 : rad.toNat ≤ 76 := hr
  have e : x0 + BitVec.ofInt 8 d - (x0 - (rad + 1)) = BitVec.ofInt 8 d + (rad + 1) := by
    generalize BitVec.ofInt 8 d = k
    bv_omega
  have h1 : (rad + 1 : Byte).toNat = rad.toNat + 1 := by bv_omega
  have h2 : ((rad + 1) * 2 : Byte).toNat = 2 * (rad.toNat + 1) := by
    have t : (2 : Byte).toNat = 2 := rfl
    rw [BitVec.toNat_mul, h1, t]
    omega
  rw [e, BitVec.lt_def, h2, BitVec.toNat_add, h1, BitVec.toNat_ofInt]
  omega

theorem box_not_zero {rad : Byte} (hr : rad ≤ 76) : (rad + 1) * 2 ≠ 0 := by
  have h76 : rad.toNat ≤ 76 := hr
  have h1 : (rad + 1 : Byte).toNat = rad.toNat + 1 := by bv_omega
  have h2 : ((rad + 1) * 2 : Byte).toNat = 2 * (rad.toNat + 1) := by
    have t : (2 : Byte).toNat = 2 := rfl
    rw [BitVec.toNat_mul, h1, t]
    omega
  intro h
  rw [h] at h2
  have : (0 : Byte).toNat = 0 := rfl
  omega

theorem draws_circleRaw {u} (hu : Ready u) (x0 y0 rad opt : Byte) (hr : rad ≤ 76) :
    Draws u (circleRaw u x0 y0 rad opt) (Covers (.circle x0 y0 rad opt)) := by
  refine (draws_dots _ u hu).congr fun px py _ => ?_
  rw [List.mem_flatMap]
  simp only [mem_circleSection, Covers]
  constructor
  · rintro ⟨s, hs, dx, dy, e1, e2, e3, e4⟩
    exact ⟨dx, dy, e1, e2, (circle_points hr dx dy).1 ⟨s, hs, e3⟩, e4⟩
  · rintro ⟨dx, dy, e1, e2, e3, e4⟩
    obtain ⟨s, hs, e5⟩ := (circle_points hr dx dy).2 e3
    exact ⟨s, hs, dx, dy, e1, e2, e5, e4⟩

theorem draws_circle {u} (hu : Ready u) (x0 y0 rad opt : Byte) (hr : rad ≤ 76) :
    Draws u (drawCircle u x0 y0 rad opt) (Covers (.circle x0 y0 rad opt)) := by
  unfold drawCircle
  by_cases hi : isBBXIntersection u (x0 - (rad + 1)) (y0 - (rad + 1)) ((rad + 1) * 2)
      ((rad + 1) * 2) = true
  · rw [if_pos hi]
    exact draws_circleRaw hu x0 y0 rad opt hr
  · rw [if_neg hi]
    refine Draws.refl u ?_
    rintro px py ho ⟨dx, dy, rfl, rfl, h, _⟩
    have hb := onCircle_bound h
    exact clip hu (box_not_zero hr) (box_not_zero hr) (by simpa using hi) ho
      ⟨in_box hr hb.1, in_box hr hb.2⟩

/-! ## Discs -/

theorem rows_up (y0 h py : Byte) (hh : h.toNat < 255) :
    py - (y0 - h) < h + 1 ↔
      ∃ dy : Int, dy ≤ 0 ∧ dy.natAbs ≤ h.toNat ∧ py = y0 + BitVec.ofInt 8 dy := by
  constructor
  · intro hp
    refine ⟨-((y0 - py).toNat : Int), by omega, ?_, ?_⟩
    · have : (y0 - py).toNat ≤ h.toNat := by bv_omega
      omega
    · rw [ofInt_neg_nat]; bv_omega
  · rintro ⟨dy, h1, h2, rfl⟩
    obtain ⟨b, hb⟩ := byte_of dy.natAbs (by omega)
    have : dy = -(b.toNat : Int) := by omega
    rw [this, ofInt_neg_nat]
    rw [← hb] at h2
    bv_omega

theorem rows_down (y0 h py : Byte) (hh : h.toNat < 255) :
    py - y0 < h + 1 ↔
      ∃ dy : Int, 0 ≤ dy ∧ dy.natAbs ≤ h.toNat ∧ py = y0 + BitVec.ofInt 8 dy := by
  constructor
  · intro hp
    refine ⟨((py - y0).toNat : Int), by omega, ?_, ?_⟩
    · have : (py - y0).toNat ≤ h.toNat := by bv_omega
      omega
    · rw [ofInt_nat]; bv_omega
  · rintro ⟨dy, h1, h2, rfl⟩
    obtain ⟨b, hb⟩ := byte_of dy.natAbs (by omega)
    have : dy = (b.toNat : Int) := by omega
    rw [this, ofInt_nat]
    rw [← hb] at h2
    bv_omega

theorem mem_discSection (x0 y0 opt px py : Byte) (s : Byte × Byte) (h1 : s.1.toNat < 255)
    (h2 : s.2.toNat < 255) :
    (∃ l ∈ discSection x0 y0 opt s, px = l.1 ∧ py - l.2.1 < l.2.2) ↔
      ∃ dx dy : Int, px = x0 + BitVec.ofInt 8 dx ∧ py = y0 + BitVec.ofInt 8 dy ∧
        ((dx.natAbs = s.1.toNat ∧ dy.natAbs ≤ s.2.toNat) ∨
          (dx.natAbs = s.2.toNat ∧ dy.natAbs ≤ s.1.toNat)) ∧ Chosen opt dx dy := by
  obtain ⟨o1, o2, o3, o4⟩ := opt_bits opt
  obtain ⟨a, b⟩ := s
  dsimp only at h1 h2
  have pos : ∀ (d : Int) (c : Byte), 0 ≤ d → d.natAbs = c.toNat → BitVec.ofInt 8 d = c := by
    intro d c h1 h2
    have : d = (c.toNat : Int) := by omega
    rw [this, ofInt_nat]
  have neg : ∀ (d : Int) (c : Byte), d ≤ 0 → d.natAbs = c.toNat → BitVec.ofInt 8 d = -c := by
    intro d c h1 h2
    have : d = -(c.toNat : Int) := by omega
    rw [this, ofInt_neg_nat]
  unfold discSection
  simp only [List.mem_append, mem_ite, o1, o2, o3, o4]
  constructor
  · rintro ⟨l, ((⟨h, rfl | rfl⟩ | ⟨h, rfl | rfl⟩) | ⟨h, rfl | rfl⟩) | ⟨h, rfl | rfl⟩, rfl, hp⟩
    · obtain ⟨dy, d1, d2, d3⟩ := (rows_up y0 b py h2).1 hp
      exact ⟨a.toNat, dy, by rw [ofInt_nat], d3, Or.inl ⟨by omega, d2⟩, Or.inl ⟨h, by omega, d1⟩⟩
    · obtain ⟨dy, d1, d2, d3⟩ := (rows_up y0 a py h1).1 hp
      exact ⟨b.toNat, dy, by rw [ofInt_nat], d3, Or.inr ⟨by omega, d2⟩, Or.inl ⟨h, by omega, d1⟩⟩
    · obtain ⟨dy, d1, d2, d3⟩ := (rows_up y0 b py h2).1 hp
      exact ⟨-a.toNat, dy, by rw [ofInt_neg_nat, sub_neg], d3, Or.inl ⟨by omega, d2⟩,
        Or.inr (Or.inl ⟨h, by omega, d1⟩)⟩
    · obtain ⟨dy, d1, d2, d3⟩ := (rows_up y0 a py h1).1 hp
      exact ⟨-b.toNat, dy, by rw [ofInt_neg_nat, sub_neg], d3, Or.inr ⟨by omega, d2⟩,
        Or.inr (Or.inl ⟨h, by omega, d1⟩)⟩
    · obtain ⟨dy, d1, d2, d3⟩ := (rows_down y0 b py h2).1 hp
      exact ⟨a.toNat, dy, by rw [ofInt_nat], d3, Or.inl ⟨by omega, d2⟩,
        Or.inr (Or.inr (Or.inr ⟨h, by omega, d1⟩))⟩
    · obtain ⟨dy, d1, d2, d3⟩ := (rows_down y0 a py h1).1 hp
      exact ⟨b.toNat, dy, by rw [ofInt_nat], d3, Or.inr ⟨by omega, d2⟩,
        Or.inr (Or.inr (Or.inr ⟨h, by omega, d1⟩))⟩
    · obtain ⟨dy, d1, d2, d3⟩ := (rows_down y0 b py h2).1 hp
      exact ⟨-a.toNat, dy, by rw [ofInt_neg_nat, sub_neg], d3, Or.inl ⟨by omega, d2⟩,
        Or.inr (Or.inr (Or.inl ⟨h, by omega, d1⟩))⟩
    · obtain ⟨dy, d1, d2, d3⟩ := (rows_down y0 a py h1).1 hp
      exact ⟨-b.toNat, dy, by rw [ofInt_neg_nat, sub_neg], d3, Or.inr ⟨by omega, d2⟩,
        Or.inr (Or.inr (Or.inl ⟨h, by omega, d1⟩))⟩
  · rintro ⟨dx, dy, rfl, rfl, hab, hc⟩
    rcases hc with ⟨h, g1, g2⟩ | ⟨h, g1, g2⟩ | ⟨h, g1, g2⟩ | ⟨h, g1, g2⟩
    · rcases hab with ⟨e1, e2⟩ | ⟨e1, e2⟩
      · exact ⟨_, Or.inl (Or.inl (Or.inl ⟨h, Or.inl rfl⟩)), by rw [pos dx a g1 e1],
          (rows_up y0 b _ h2).2 ⟨dy, g2, e2, rfl⟩⟩
      · exact ⟨_, Or.inl (Or.inl (Or.inl ⟨h, Or.inr rfl⟩)), by rw [pos dx b g1 e1],
          (rows_up y0 a _ h1).2 ⟨dy, g2, e2, rfl⟩⟩
    · rcases hab with ⟨e1, e2⟩ | ⟨e1, e2⟩
      · exact ⟨_, Or.inl (Or.inl (Or.inr ⟨h, Or.inl rfl⟩)), by rw [neg dx a g1 e1, sub_neg],
          (rows_up y0 b _ h2).2 ⟨dy, g2, e2, rfl⟩⟩
      · exact ⟨_, Or.inl (Or.inl (Or.inr ⟨h, Or.inr rfl⟩)), by rw [neg dx b g1 e1, sub_neg],
          (rows_up y0 a _ h1).2 ⟨dy, g2, e2, rfl⟩⟩
    · rcases hab with ⟨e1, e2⟩ | ⟨e1, e2⟩
      · exact ⟨_, Or.inr ⟨h, Or.inl rfl⟩, by rw [neg dx a g1 e1, sub_neg],
          (rows_down y0 b _ h2).2 ⟨dy, g2, e2, rfl⟩⟩
      · exact ⟨_, Or.inr ⟨h, Or.inr rfl⟩, by rw [neg dx b g1 e1, sub_neg],
          (rows_down y0 a _ h1).2 ⟨dy, g2, e2, rfl⟩⟩
    · rcases hab with ⟨e1, e2⟩ | ⟨e1, e2⟩
      · exact ⟨_, Or.inl (Or.inr ⟨h, Or.inl rfl⟩), by rw [pos dx a g1 e1],
          (rows_down y0 b _ h2).2 ⟨dy, g2, e2, rfl⟩⟩
      · exact ⟨_, Or.inl (Or.inr ⟨h, Or.inr rfl⟩), by rw [pos dx b g1 e1],
          (rows_down y0 a _ h1).2 ⟨dy, g2, e2, rfl⟩⟩

/-- Every column within the radius has a point on the circle. -/
theorem column_exists : ∀ c : Nat, 1 ≤ c → ∃ b : Nat, (b : Int) * b - b < c ∧ (c : Int) ≤ b * b + b := by
  intro c
  induction c with
  | zero => intro h; omega
  | succ c ih =>
    intro _
    by_cases h0 : c = 0
    · subst h0; exact ⟨1, by simp, by simp⟩
    · obtain ⟨b, h1, h2⟩ := ih (by omega)
      by_cases h : ((c + 1 : Nat) : Int) ≤ b * b + b
      · exact ⟨b, by push_cast; omega, h⟩
      · refine ⟨b + 1, ?_, ?_⟩
        · push_cast at h ⊢; nlinarith
        · push_cast at h ⊢; nlinarith

theorem near_above {r x q : Nat} (h : (q : Int) * q - q < r * r - (x : Int) * x) :
    ∃ b : Nat, q ≤ b ∧ Near r x b := by
  have hq : (0 : Int) ≤ (q : Int) * q - q := by
    rcases Nat.eq_zero_or_pos q with h0 | h0
    · subst h0; simp
    · have : (1 : Int) ≤ q := by omega
      nlinarith
  obtain ⟨c, hc⟩ : ∃ c : Nat, (c : Int) = r * r - (x : Int) * x :=
    ⟨((r : Int) * r - (x : Int) * x).toNat, by omega⟩
  obtain ⟨b, h1, h2⟩ := column_exists c (by omega)
  refine ⟨b, ?_, Or.inr (by rw [← hc]; exact h1), by rw [← hc]; exact h2⟩
  by_contra hcon
  have : (b : Int) + 1 ≤ q := by omega
  nlinarith

theorem last_column {r p : Nat} (hp : 1 ≤ p) : ∀ (k x : Nat), r - x ≤ k →
    (p : Int) * p - p < r * r - (x : Int) * x →
    ∃ x' : Nat, x ≤ x' ∧ (p : Int) * p - p < r * r - (x' : Int) * x' ∧
      (r * r - ((x' : Int) + 1) * (x' + 1) : Int) ≤ p * p - p := by
  intro k
  induction k with
  | zero =>
    intro x hk h
    exfalso
    have : (r : Int) ≤ x := by omega
    have : (1 : Int) ≤ p := by omega
    nlinarith
  | succ k ih =>
    intro x hk h
    by_cases h' : (p : Int) * p - p < r * r - ((x + 1 : Nat) : Int) * (x + 1 : Nat)
    · obtain ⟨x', g1, g2, g3⟩ := ih (x + 1) (by omega) h'
      exact ⟨x', by omega, g2, g3⟩
    · refine ⟨x, Nat.le_refl x, h, ?_⟩
      push_cast at h'
      omega

/-- The lines of the loop, mirrored, fill the disc. -/
theorem disc_points {rad : Byte} (hr : rad ≤ 76) (dx dy : Int) :
    (∃ s ∈ circleStart rad, (dx.natAbs = s.1.toNat ∧ dy.natAbs ≤ s.2.toNat) ∨
      (dx.natAbs = s.2.toNat ∧ dy.natAbs ≤ s.1.toNat)) ↔ InDisc rad.toNat dx dy := by
  obtain ⟨c1, c2⟩ := circleStart_spec hr
  have h76 : rad.toNat ≤ 76 := hr
  have mem : ∀ x y : Nat, x ≤ y → Near rad.toNat x y →
      ∃ s ∈ circleStart rad, s.1.toNat = x ∧ s.2.toNat = y := by
    intro x y hxy h
    have := near_bound hxy h
    obtain ⟨a, ha⟩ := byte_of x (by omega)
    obtain ⟨b, hb⟩ := byte_of y (by omega)
    rw [← ha, ← hb] at hxy h
    exact ⟨(a, b), c2 a b hxy h, ha, hb⟩
  rw [inDisc_cases]
  generalize dx.natAbs = A
  generalize dy.natAbs = B
  generalize rad.toNat = r at c1 c2 mem
  constructor
  · rintro ⟨s, hs, hAB⟩
    have norm : ∃ x y : Nat, x ≤ y ∧ Near r x y ∧ ((A = x ∧ B ≤ y) ∨ (A = y ∧ B ≤ x)) := by
      rcases c1 s hs with ⟨h1, h2⟩ | ⟨h1, h2⟩
      · exact ⟨_, _, h1, h2, hAB⟩
      · exact ⟨_, _, h1, h2, hAB.symm⟩
    obtain ⟨x, y, hxy, ⟨n1, n2⟩, hAB⟩ := norm
    rcases hAB with ⟨rfl, hB⟩ | ⟨rfl, hB⟩
    · by_cases hle : A ≤ B
      · left
        refine ⟨hle, ?_⟩
        by_cases h0 : B = 0
        · left; omega
        · right
          rcases n1 with n1 | n1
          · omega
          · have : (B : Int) ≤ y := by omega
            have : (1 : Int) ≤ B := by omega
            nlinarith
      · right
        refine ⟨by omega, ?_⟩
        rcases n1 with n1 | n1
        · omega
        · have : (B : Int) ≤ A := by omega
          have : (A : Int) ≤ y := by omega
          have : (1 : Int) ≤ A := by omega
          nlinarith
    · by_cases hle : A ≤ B
      · left
        refine ⟨hle, ?_⟩
        have e1 : x = A := by omega
        have e2 : B = A := by omega
        rw [e1] at n1
        rw [e2]
        exact n1
      · right
        refine ⟨by omega, ?_⟩
        rcases n1 with n1 | n1
        · omega
        · have : (B : Int) ≤ x := by omega
          nlinarith
  · rintro (⟨h1, h2⟩ | ⟨h1, h2⟩)
    · by_cases h0 : B = 0
      · have hA : A = 0 := by omega
        obtain ⟨s, hs, e1, e2⟩ := mem 0 r (Nat.zero_le _) (near_start r)
        exact ⟨s, hs, Or.inl ⟨by omega, by omega⟩⟩
      · rcases h2 with h2 | h2
        · omega
        · obtain ⟨b, g1, g2⟩ := near_above h2
          obtain ⟨s, hs, e1, e2⟩ := mem A b (by omega) g2
          exact ⟨s, hs, Or.inl ⟨by omega, by omega⟩⟩
    · obtain ⟨x, g1, g2, g3⟩ := last_column (p := A) (by omega) r B (by omega) h2
      by_cases hx : A ≤ x
      · have h3 : (A : Int) * A - A < r * r - (A : Int) * A := by
          have : (A : Int) ≤ x := by omega
          nlinarith
        obtain ⟨b, k1, k2⟩ := near_above h3
        obtain ⟨s, hs, e1, e2⟩ := mem A b k1 k2
        exact ⟨s, hs, Or.inl ⟨by omega, by omega⟩⟩
      · have hn : Near r x A := by
          refine ⟨Or.inr g2, ?_⟩
          have : (x : Int) + 1 ≤ A := by omega
          nlinarith
        obtain ⟨s, hs, e1, e2⟩ := mem x A (by omega) hn
        exact ⟨s, hs, Or.inr ⟨by omega, by omega⟩⟩

theorem draws_lines : ∀ (ls : List (Byte × Byte × Byte)) (u : U8g), Ready u →
    Draws u (ls.foldl (fun u l => drawVLine u l.1 l.2.1 l.2.2) u)
      (fun px py => ∃ l ∈ ls, px = l.1 ∧ py - l.2.1 < l.2.2) := by
  intro ls
  induction ls with
  | nil => intro u _; exact Draws.refl u (by simp)
  | cons l ls ih =>
    intro u hu
    have h1 := draws_drawVLine hu l.1 l.2.1 l.2.2
    refine (h1.trans (ih _ (h1.ready hu))).congr fun px py _ => ?_
    simp

theorem draws_discRaw {u} (hu : Ready u) (x0 y0 rad opt : Byte) (hr : rad ≤ 76) :
    Draws u (discRaw u x0 y0 rad opt) (Covers (.disc x0 y0 rad opt)) := by
  have h76 : rad.toNat ≤ 76 := hr
  refine (draws_lines _ u hu).congr fun px py _ => ?_
  have hsmall : ∀ s ∈ circleStart rad, s.1.toNat < 255 ∧ s.2.toNat < 255 := by
    intro s hs
    rcases (circleStart_spec hr).1 s hs with ⟨h1, h2⟩ | ⟨h1, h2⟩ <;>
      have := near_bound h1 h2 <;> omega
  simp only [Covers]
  constructor
  · rintro ⟨l, hl, hp⟩
    rw [List.mem_flatMap] at hl
    obtain ⟨s, hs, hl⟩ := hl
    obtain ⟨dx, dy, e1, e2, e3, e4⟩ := (mem_discSection x0 y0 opt px py s (hsmall s hs).1
      (hsmall s hs).2).1 ⟨l, hl, hp⟩
    exact ⟨dx, dy, e1, e2, (disc_points hr dx dy).1 ⟨s, hs, e3⟩, e4⟩
  · rintro ⟨dx, dy, e1, e2, e3, e4⟩
    obtain ⟨s, hs, e5⟩ := (disc_points hr dx dy).2 e3
    obtain ⟨l, hl, hp⟩ := (mem_discSection x0 y0 opt px py s (hsmall s hs).1
      (hsmall s hs).2).2 ⟨dx, dy, e1, e2, e5, e4⟩
    exact ⟨l, List.mem_flatMap.2 ⟨s, hs, hl⟩, hp⟩

theorem draws_disc {u} (hu : Ready u) (x0 y0 rad opt : Byte) (hr : rad ≤ 76) :
    Draws u (drawDisc u x0 y0 rad opt) (Covers (.disc x0 y0 rad opt)) := by
  unfold drawDisc
  by_cases hi : isBBXIntersection u (x0 - (rad + 1)) (y0 - (rad + 1)) ((rad + 1) * 2)
      ((rad + 1) * 2) = true
  · rw [if_pos hi]
    exact draws_discRaw hu x0 y0 rad opt hr
  · rw [if_neg hi]
    refine Draws.refl u ?_
    rintro px py ho ⟨dx, dy, rfl, rfl, h, _⟩
    have hb := inDisc_bound h
    exact clip hu (box_not_zero hr) (box_not_zero hr) (by simpa using hi) ho
      ⟨in_box hr hb.1, in_box hr hb.2⟩

end Verif.U8g
