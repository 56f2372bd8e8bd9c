import Verif.U8g.Line
import Verif.U8g.Props116

/-!
# C117: lines of the graphics library are straight
-/

namespace Verif.U8g

theorem slt_zero_sub (e d : Byte) (he : e.toNat ≤ 127) (hd : d.toNat ≤ 128) :
    (e - d).slt 0 = decide (e.toNat < d.toNat) := by
  have h1 : (e - d).slt 0 = (e - d).msb := by
    simp [BitVec.slt_zero_eq_msb]
  rw [h1, BitVec.msb_eq_decide]
  congr 1
  apply propext
  constructor <;> intro h <;> bv_omega

/-- The other coordinate after `m` steps up or down. -/
def yAt (up : Bool) (y0 : Byte) (m : Nat) : Byte :=
  if up then y0 + BitVec.ofNat 8 m else y0 - BitVec.ofNat 8 m

theorem yAt_succ (up : Bool) (y0 : Byte) (m : Nat) :
    yAt up y0 m + (if up then 1 else -1) = yAt up y0 (m + 1) := by
  cases up <;> simp [yAt, BitVec.ofNat_add] <;> bv_omega

/-- A point with its coordinates in the right order. -/
def swapPt (swap : Bool) (x y : Byte) : Byte × Byte := if swap then (y, x) else (x, y)

theorem lineLoop_spec (swap up : Bool) (x2 dx dy y0 : Byte) (hdx : 0 < dx.toNat)
    (hdy : dy.toNat ≤ dx.toNat) (hs : dx.toNat ≤ 128 ∨ dy.toNat = 0) (hx2 : x2.toNat < 255) :
    ∀ (r n : Nat) (x y err : Byte) (K M : Nat), x.toNat + r = x2.toNat → r + 1 < n →
      err.toNat < dx.toNat → err.toNat ≤ 127 →
      err.toNat + K * dy.toNat = dx.toNat / 2 + M * dx.toNat → y = yAt up y0 M →
      ∃ ps, lineLoop swap x2 dx dy (if up then 1 else -1) n x y err = some ps ∧
        ps.length = r + 1 ∧
        ∀ i, i ≤ r → ∃ m e, ps[i]? = some (swapPt swap (x + BitVec.ofNat 8 i) (yAt up y0 m)) ∧
          e < dx.toNat ∧ e + (K + i) * dy.toNat = dx.toNat / 2 + m * dx.toNat := by
  intro r
  induction r with
  | zero =>
    intro n x y err K M hx hn h1 h2 h3 hy
    obtain ⟨n, rfl⟩ : ∃ k, n = k + 2 := ⟨n - 2, by omega⟩
    have hle : x ≤ x2 := by bv_omega
    have hgt : ¬ x + 1 ≤ x2 := by bv_omega
    refine ⟨[swapPt swap x y], ?_, rfl, ?_⟩
    · rw [lineLoop, if_pos hle]
      have hend : ∀ y e, lineLoop swap x2 dx dy (if up then 1 else -1) (n + 1) (x + 1) y e
          = some [] := by
        intro y e; rw [lineLoop, if_neg hgt]
      simp only [hend]
      simp [swapPt]
    · intro i hi
      obtain rfl : i = 0 := by omega
      exact ⟨M, err.toNat, by simp [hy], h1, by simpa using h3⟩
  | succ r ih =>
    intro n x y err K M hx hn h1 h2 h3 hy
    obtain ⟨n, rfl⟩ : ∃ k, n = k + 1 := ⟨n - 1, by omega⟩
    have hle : x ≤ x2 := by bv_omega
    have hx1 : (x + 1).toNat + r = x2.toNat := by bv_omega
    have hsl := slt_zero_sub err dy h2 (by omega)
    have hK : (K + 1) * dy.toNat = K * dy.toNat + dy.toNat := by rw [Nat.add_mul, Nat.one_mul]
    have finish : ∀ y' err' M', err'.toNat < dx.toNat → err'.toNat ≤ 127 →
        err'.toNat + (K + 1) * dy.toNat = dx.toNat / 2 + M' * dx.toNat → y' = yAt up y0 M' →
        (if (err - dy).slt 0 then
            lineLoop swap x2 dx dy (if up then 1 else -1) n (x + 1) (y + (if up then 1 else -1))
              (err - dy + dx)
          else lineLoop swap x2 dx dy (if up then 1 else -1) n (x + 1) y (err - dy))
          = lineLoop swap x2 dx dy (if up then 1 else -1) n (x + 1) y' err' →
        ∃ ps, lineLoop swap x2 dx dy (if up then 1 else -1) (n + 1) x y err = some ps ∧
          ps.length = r + 1 + 1 ∧
          ∀ i, i ≤ r + 1 → ∃ m e,
            ps[i]? = some (swapPt swap (x + BitVec.ofNat 8 i) (yAt up y0 m)) ∧
            e < dx.toNat ∧ e + (K + i) * dy.toNat = dx.toNat / 2 + m * dx.toNat := by
      intro y' err' M' g1 g2 g3 g4 heq
      obtain ⟨ps, e1, e2, e3⟩ := ih n (x + 1) y' err' (K + 1) M' hx1 (by omega) g1 g2 g3 g4
      refine ⟨swapPt swap x y :: ps, ?_, by simp [e2], ?_⟩
      · rw [lineLoop, if_pos hle]
        simp only [heq, e1]
        simp [swapPt]
      · intro i hi
        cases i with
        | zero => exact ⟨M, err.toNat, by simp [hy], h1, by simpa using h3⟩
        | succ i =>
          obtain ⟨m, e, q1, q2, q3⟩ := e3 i (by omega)
          refine ⟨m, e, ?_, q2, ?_⟩
          · rw [List.getElem?_cons_succ, q1]
            have : x + 1 + BitVec.ofNat 8 i = x + BitVec.ofNat 8 (i + 1) := by
              rw [BitVec.ofNat_add]; bv_omega
            rw [this]
          · rw [show K + (i + 1) = K + 1 + i by omega]; exact q3
    by_cases hlt : err.toNat < dy.toNat
    · have hs' : dx.toNat ≤ 128 := by rcases hs with h | h <;> omega
      have he : (err - dy + dx).toNat = err.toNat + dx.toNat - dy.toNat := by bv_omega
      refine finish (y + (if up then 1 else -1)) (err - dy + dx) (M + 1) (by omega) (by omega) ?_
        (by rw [hy]; exact yAt_succ up y0 M) ?_
      · have hM : (M + 1) * dx.toNat = M * dx.toNat + dx.toNat := by rw [Nat.add_mul, Nat.one_mul]
        omega
      · rw [hsl, decide_eq_true hlt]; rfl
    · have he : (err - dy).toNat = err.toNat - dy.toNat := by bv_omega
      refine finish y (err - dy) M (by omega) (by omega) (by omega) hy ?_
      · rw [hsl, decide_eq_false hlt]; rfl


theorem yAt_toNat (y1 y2 dy : Byte) (m : Nat)
    (hdy : (dy.toNat : Int) = ((y2.toNat : Int) - y1.toNat).natAbs) (hm : m ≤ dy.toNat) :
    ((yAt (decide (y1 < y2)) y1 m).toNat : Int)
      = if y1 < y2 then (y1.toNat : Int) + m else y1.toNat - m := by
  have hy := y1.isLt
  have hy2 := y2.isLt
  by_cases h : y1 < y2
  · have h' : y1.toNat < y2.toNat := h
    rw [if_pos h, decide_eq_true h]
    simp only [yAt, if_true, BitVec.toNat_add, BitVec.toNat_ofNat]
    omega
  · have h' : y2.toNat ≤ y1.toNat := by bv_omega
    rw [if_neg h, decide_eq_false h]
    simp only [yAt, Bool.false_eq_true, if_false, BitVec.toNat_sub, BitVec.toNat_ofNat]
    omega

/-- The coordinate of a point that belongs to the short side. -/
def minor (swap : Bool) (p : Byte × Byte) : Int := if swap then (p.1.toNat : Int) else p.2.toNat

/-- The coordinate of a point that belongs to the long side. -/
def major (swap : Bool) (p : Byte × Byte) : Int := if swap then (p.2.toNat : Int) else p.1.toNat

theorem major_swapPt (swap : Bool) (x y : Byte) : major swap (swapPt swap x y) = x.toNat := by
  cases swap <;> rfl

theorem minor_swapPt (swap : Bool) (x y : Byte) : minor swap (swapPt swap x y) = y.toNat := by
  cases swap <;> rfl

theorem pointsOf_iff (swap : Bool) (ps : List (Byte × Byte)) (a b : Int) :
    (if swap then PointsOf ps b a else PointsOf ps a b)
      ↔ ∃ (i : Nat) (p : Byte × Byte), ps[i]? = some p ∧ a = major swap p ∧ b = minor swap p := by
  have h : (if swap then PointsOf ps b a else PointsOf ps a b)
      ↔ ∃ p ∈ ps, a = major swap p ∧ b = minor swap p := by
    cases swap
    · exact Iff.rfl
    · constructor
      · rintro ⟨p, hp, h1, h2⟩; exact ⟨p, hp, h2, h1⟩
      · rintro ⟨p, hp, h1, h2⟩; exact ⟨p, hp, h2, h1⟩
  rw [h]
  constructor
  · rintro ⟨p, hp, h1, h2⟩
    obtain ⟨i, hi⟩ := List.getElem?_of_mem hp
    exact ⟨i, p, hi, h1, h2⟩
  · rintro ⟨i, p, hi, h1, h2⟩
    exact ⟨p, List.mem_of_getElem? hi, h1, h2⟩

/-- What the loop draws, in numbers: a flat line from the left end to the right one. -/
theorem lineStart_flat (swap : Bool) (x1 y1 x2 y2 dx dy : Byte) (n : Nat)
    (hx : x1.toNat ≤ x2.toNat) (hdx : dx.toNat = x2.toNat - x1.toNat)
    (hdy : (dy.toNat : Int) = ((y2.toNat : Int) - y1.toNat).natAbs) (hle : dy.toNat ≤ dx.toNat)
    (hs : dx.toNat ≤ 128 ∨ dy.toNat = 0) (hx2 : x2.toNat < 255) (hn : dx.toNat + 2 ≤ n) :
    ∃ ps, lineStart n swap x1 y1 x2 y2 dx dy = some ps ∧ ps.length = dx.toNat + 1 ∧
      IsFlat x1.toNat y1.toNat x2.toNat y2.toNat
        (fun a b => if swap then PointsOf ps b a else PointsOf ps a b) := by
  have hx2' := x2.isLt
  -- the list of points
  have hlist : ∃ ps, lineStart n swap x1 y1 x2 y2 dx dy = some ps ∧ ps.length = dx.toNat + 1 ∧
      ∀ i, i ≤ dx.toNat → ∃ (m e : Nat) (p : Byte × Byte), ps[i]? = some p ∧ major swap p = x1.toNat + i ∧
        minor swap p = (if y1 < y2 then (y1.toNat : Int) + m else y1.toNat - m) ∧
        m ≤ dy.toNat ∧ (e < dx.toNat ∨ e = 0) ∧
        e + i * dy.toNat = dx.toNat / 2 + m * dx.toNat := by
    by_cases h0 : dx.toNat = 0
    · obtain ⟨n, rfl⟩ : ∃ k, n = k + 2 := ⟨n - 2, by omega⟩
      have hle : x1 ≤ x2 := hx
      have hgt : ¬ x1 + 1 ≤ x2 := by bv_omega
      refine ⟨[swapPt swap x1 y1], ?_, by simp [h0], ?_⟩
      · have hend : ∀ y e, lineLoop swap x2 dx dy (if y1 < y2 then 1 else -1) (n + 1) (x1 + 1) y e
            = some [] := by
          intro y e; rw [lineLoop, if_neg hgt]
        rw [lineStart, lineLoop, if_pos hle]
        simp only [hend]
        simp [swapPt]
      · intro i hi
        obtain rfl : i = 0 := by omega
        refine ⟨0, 0, _, rfl, by rw [major_swapPt]; omega, ?_, by omega, Or.inr rfl, by omega⟩
        rw [minor_swapPt]
        split <;> simp
    · have hsh : (dx >>> 1).toNat = dx.toNat / 2 := by
        simp [BitVec.toNat_ushiftRight, Nat.shiftRight_eq_div_pow]
      have hdl := dx.isLt
      obtain ⟨ps, e1, e2, e3⟩ := lineLoop_spec swap (decide (y1 < y2)) x2 dx dy y1 (by omega) hle hs hx2
        dx.toNat n x1 y1 (dx >>> 1) 0 0 (by omega) (by omega) (by omega) (by omega)
        (by rw [hsh]; simp) (by simp [yAt])
      refine ⟨ps, ?_, e2, ?_⟩
      · rw [lineStart, ← e1]
        simp
      · intro i hi
        obtain ⟨m, e, q1, q2, q3⟩ := e3 i hi
        rw [Nat.zero_add] at q3
        have hm : m ≤ dy.toNat := by
          have h1 : i * dy.toNat ≤ dx.toNat * dy.toNat := Nat.mul_le_mul_right _ hi
          have h2 : (dy.toNat + 1) * dx.toNat = dx.toNat * dy.toNat + dx.toNat := by
            rw [Nat.add_mul, Nat.one_mul, Nat.mul_comm]
          have h3 : m * dx.toNat < (dy.toNat + 1) * dx.toNat := by omega
          have := Nat.lt_of_mul_lt_mul_right h3
          omega
        refine ⟨m, e, _, q1, ?_, ?_, hm, Or.inl q2, q3⟩
        · rw [major_swapPt, BitVec.toNat_add, BitVec.toNat_ofNat]
          omega
        · rw [minor_swapPt]
          exact yAt_toNat y1 y2 dy m hdy hm
  obtain ⟨ps, h1, h2, h3⟩ := hlist
  refine ⟨ps, h1, h2, ?_⟩
  have hsgn : (y2.toNat : Int) = if y1 < y2 then (y1.toNat : Int) + dy.toNat else y1.toNat - dy.toNat := by
    by_cases h : y1 < y2
    · have : y1.toNat < y2.toNat := h
      rw [if_pos h]; omega
    · have : y2.toNat ≤ y1.toNat := by bv_omega
      rw [if_neg h]; omega
  have hidx : ∀ i p, ps[i]? = some p → i ≤ dx.toNat := by
    intro i p h
    have := (List.getElem?_eq_some_iff.mp h).1
    omega
  -- the ends
  have hend : ∀ i, (i = 0 ∨ i = dx.toNat) → ∃ p, ps[i]? = some p ∧ major swap p = x1.toNat + i ∧
      minor swap p = if i = 0 then (y1.toNat : Int) else y2.toNat := by
    intro i hi
    obtain ⟨m, e, p, q1, q2, q3, q4, q5, q6⟩ := h3 i (by omega)
    refine ⟨p, q1, q2, ?_⟩
    rw [q3]
    by_cases h0 : dx.toNat = 0
    · have : i = 0 := by omega
      have hm : m = 0 := by omega
      rw [if_pos this, hm]
      split <;> simp
    · rcases hi with rfl | rfl
      · have hm : m = 0 := by
          cases m with
          | zero => rfl
          | succ m =>
            have : (m + 1) * dx.toNat = m * dx.toNat + dx.toNat := by rw [Nat.add_mul, Nat.one_mul]
            omega
        rw [if_pos rfl, hm]
        split <;> simp
      · have hm : m = dy.toNat := by
          have h5 : dy.toNat * dx.toNat < (m + 1) * dx.toNat := by
            rw [Nat.mul_comm dx.toNat] at q6
            have : (m + 1) * dx.toNat = m * dx.toNat + dx.toNat := by rw [Nat.add_mul, Nat.one_mul]
            omega
          have := Nat.lt_of_mul_lt_mul_right h5
          omega
        rw [if_neg h0, hm, hsgn]
  constructor
  · obtain ⟨p, a, b, c⟩ := hend 0 (Or.inl rfl)
    exact (pointsOf_iff ..).2 ⟨0, p, a, by omega, by simpa using c.symm⟩
  · obtain ⟨p, a, b, c⟩ := hend dx.toNat (Or.inr rfl)
    by_cases h0 : dx.toNat = 0
    · refine (pointsOf_iff ..).2 ⟨_, p, a, by omega, ?_⟩
      rw [c, if_pos h0]
      omega
    · rw [if_neg h0] at c
      exact (pointsOf_iff ..).2 ⟨_, p, a, by omega, c.symm⟩
  · intro x y hS
    obtain ⟨i, p, a, b, c⟩ := (pointsOf_iff ..).1 hS
    have hi := hidx i p a
    obtain ⟨m, e, p', q1, q2, _⟩ := h3 i hi
    rw [a] at q1
    obtain rfl := Option.some.inj q1
    omega
  · intro x g1 g2
    have hi : (x - x1.toNat).toNat ≤ dx.toNat := by omega
    obtain ⟨m, e, p, q1, q2, _⟩ := h3 _ hi
    refine ⟨minor swap p, (pointsOf_iff ..).2 ⟨_, p, q1, by omega, rfl⟩, ?_⟩
    intro y' hS
    obtain ⟨j, p', a, b, c⟩ := (pointsOf_iff ..).1 hS
    obtain ⟨m', e', p'', r1, r2, _⟩ := h3 j (hidx j p' a)
    rw [a] at r1
    obtain rfl := Option.some.inj r1
    have : j = (x - x1.toNat).toNat := by omega
    rw [this, q1] at a
    obtain rfl := Option.some.inj a
    exact c
  · intro x y hS
    obtain ⟨i, p, a, b, c⟩ := (pointsOf_iff ..).1 hS
    obtain ⟨m, e, p', q1, q2, q3, q4, q5, q6⟩ := h3 i (hidx i p a)
    rw [a] at q1
    obtain rfl := Option.some.inj q1
    have hxx : x - (x1.toNat : Int) = i := by omega
    have hdd : (x2.toNat : Int) - x1.toNat = dx.toNat := by omega
    rw [hxx, hdd]
    have q6' : (e : Int) + i * dy.toNat = (dx.toNat / 2 : Nat) + m * dx.toNat := by
      have := congrArg (Int.ofNat) q6
      simpa using this
    by_cases h : y1 < y2
    · rw [if_pos h] at q3 hsgn
      have e1 : y - (y1.toNat : Int) = m := by omega
      have e2 : (y2.toNat : Int) - y1.toNat = dy.toNat := by omega
      rw [e1, e2]
      omega
    · rw [if_neg h] at q3 hsgn
      have e1 : y - (y1.toNat : Int) = -m := by omega
      have e2 : (y2.toNat : Int) - y1.toNat = -dy.toNat := by omega
      rw [e1, e2, Int.neg_mul, Int.mul_neg]
      omega

theorem isFlat_reverse {x1 y1 x2 y2 : Int} {S : Int → Int → Prop} (h : IsFlat x2 y2 x1 y1 S) :
    IsFlat x1 y1 x2 y2 S := by
  refine ⟨h.last, h.first, ?_, ?_, ?_⟩
  · intro x y hs; have := h.inside x y hs; omega
  · intro x g1 g2; exact h.column x (by omega) (by omega)
  · intro x y hs
    have h1 := h.near x y hs
    have e : (y - y1) * (x2 - x1) - (x - x1) * (y2 - y1)
        = -((y - y2) * (x1 - x2) - (x - x2) * (y1 - y2)) := by
      simp only [Int.sub_mul, Int.mul_sub]
      have := Int.mul_comm y1 x1
      have := Int.mul_comm y2 x2
      have := Int.mul_comm y1 x2
      have := Int.mul_comm y2 x1
      omega
    rw [e, Int.natAbs_neg]
    omega

theorem absDiff_toNat (a b : Byte) :
    ((absDiff a b).toNat : Int) = ((b.toNat : Int) - a.toNat).natAbs := by
  unfold absDiff
  by_cases h : b < a
  · rw [if_pos h]
    have h' : b.toNat < a.toNat := h
    have : (a - b).toNat = a.toNat - b.toNat := by bv_omega
    omega
  · rw [if_neg h]
    have h' : a.toNat ≤ b.toNat := by bv_omega
    have : (b - a).toNat = b.toNat - a.toNat := by bv_omega
    omega

theorem absDiff_comm (a b : Byte) : absDiff a b = absDiff b a := by
  apply BitVec.eq_of_toNat_eq
  have := absDiff_toNat a b
  have := absDiff_toNat b a
  omega

theorem lineOrder_flat (swap : Bool) (x1 y1 x2 y2 : Byte) (n : Nat)
    (hle : ((y2.toNat : Int) - y1.toNat).natAbs ≤ ((x2.toNat : Int) - x1.toNat).natAbs)
    (hs : ((x2.toNat : Int) - x1.toNat).natAbs ≤ 128 ∨ y1 = y2)
    (h1 : x1.toNat < 255) (h2 : x2.toNat < 255) (hn : 256 ≤ n) :
    ∃ ps, lineOrder n swap x1 y1 x2 y2 (absDiff x1 x2) (absDiff y1 y2) = some ps ∧
      ps.length = ((x2.toNat : Int) - x1.toNat).natAbs + 1 ∧
      IsFlat x1.toNat y1.toNat x2.toNat y2.toNat
        (fun a b => if swap then PointsOf ps b a else PointsOf ps a b) := by
  have ax := absDiff_toNat x1 x2
  have ay := absDiff_toNat y1 y2
  have hs' : (absDiff x1 x2).toNat ≤ 128 ∨ (absDiff y1 y2).toNat = 0 := by
    rcases hs with h | h
    · left; omega
    · right; rw [h] at ay ⊢; omega
  unfold lineOrder
  by_cases h : x2 < x1
  · rw [if_pos h]
    have h' : x2.toNat < x1.toNat := h
    obtain ⟨ps, g1, g2, g3⟩ := lineStart_flat swap x2 y2 x1 y1 (absDiff x1 x2) (absDiff y1 y2) n
      (by omega) (by omega) (by omega) (by omega) hs' h1 (by omega)
    exact ⟨ps, g1, by omega, isFlat_reverse g3⟩
  · rw [if_neg h]
    have h' : x1.toNat ≤ x2.toNat := by bv_omega
    obtain ⟨ps, g1, g2, g3⟩ := lineStart_flat swap x1 y1 x2 y2 (absDiff x1 x2) (absDiff y1 y2) n
      (by omega) (by omega) (by omega) (by omega) hs' h2 (by omega)
    exact ⟨ps, g1, by omega, g3⟩

/-- **C117.** A line whose longer side is not longer than 128, or that is parallel to an
axis, and whose longer side does not reach the coordinate 255 is straight: the drawing ends, both ends are
drawn, every column (of a steep line: every row) between them has exactly one
point, and no point is off by more than half a point. -/
theorem C117_line_partial (x1 y1 x2 y2 : Byte) (n : Nat) (hn : 256 ≤ n)
    (hs : (((x2.toNat : Int) - x1.toNat).natAbs ≤ 128 ∧ ((y2.toNat : Int) - y1.toNat).natAbs ≤ 128)
      ∨ x1 = x2 ∨ y1 = y2)
    (he : if ((y2.toNat : Int) - y1.toNat).natAbs ≤ ((x2.toNat : Int) - x1.toNat).natAbs
      then x1 ≠ 255 ∧ x2 ≠ 255 else y1 ≠ 255 ∧ y2 ≠ 255) :
    ∃ ps, linePoints n x1 y1 x2 y2 = some ps ∧
      ps.length = max ((x2.toNat : Int) - x1.toNat).natAbs ((y2.toNat : Int) - y1.toNat).natAbs + 1 ∧
      IsLine x1.toNat y1.toNat x2.toNat y2.toNat (PointsOf ps) := by
  have ax := absDiff_toNat x1 x2
  have ay := absDiff_toNat y1 y2
  have hlt : absDiff x1 x2 < absDiff y1 y2 ↔
      ¬ ((y2.toNat : Int) - y1.toNat).natAbs ≤ ((x2.toNat : Int) - x1.toNat).natAbs := by
    rw [BitVec.lt_def]; omega
  unfold linePoints IsLine
  by_cases h : ((y2.toNat : Int) - y1.toNat).natAbs ≤ ((x2.toNat : Int) - x1.toNat).natAbs
  · rw [if_neg (fun hh => hlt.1 hh h)]
    rw [if_pos h] at he
    have b1 : x1.toNat < 255 := by have := he.1; bv_omega
    have b2 : x2.toNat < 255 := by have := he.2; bv_omega
    simp only [if_pos h]
    obtain ⟨ps, g1, g2, g3⟩ := lineOrder_flat false x1 y1 x2 y2 n h
      (by
        rcases hs with hs | rfl | hs
        · exact Or.inl hs.1
        · left; omega
        · exact Or.inr hs) b1 b2 hn
    exact ⟨ps, g1, by omega, g3⟩
  · rw [if_pos (hlt.2 h)]
    rw [if_neg h] at he
    have b3 : y1.toNat < 255 := by have := he.1; bv_omega
    have b4 : y2.toNat < 255 := by have := he.2; bv_omega
    simp only [if_neg h]
    obtain ⟨ps, g1, g2, g3⟩ := lineOrder_flat true y1 x1 y2 x2 n (by omega)
      (by
        rcases hs with hs | hs | rfl
        · exact Or.inl hs.2
        · exact Or.inr hs
        · left; omega) b3 b4 hn
    exact ⟨ps, g1, by omega, g3⟩

/-- **C117.** It does not matter at which end a line begins. -/
theorem C117_direction (x1 y1 x2 y2 : Byte) (n : Nat) :
    linePoints n x1 y1 x2 y2 = linePoints n x2 y2 x1 y1 := by
  have ord : ∀ swap (a b c d : Byte), (a = c → b = d) → ∀ dx dy,
      lineOrder n swap a b c d dx dy = lineOrder n swap c d a b dx dy := by
    intro swap a b c d he dx dy
    unfold lineOrder
    by_cases h1 : c < a
    · rw [if_pos h1, if_neg (by bv_omega)]
    · by_cases h2 : a < c
      · rw [if_neg h1, if_pos h2]
      · have h3 : a = c := by bv_omega
        obtain rfl := h3
        obtain rfl := he rfl
        rfl
  have zero : ∀ a b : Byte, absDiff a a = 0 ∧ (absDiff a b = 0 → a = b) := by
    intro a b
    have h1 := absDiff_toNat a a
    have h2 := absDiff_toNat a b
    refine ⟨BitVec.eq_of_toNat_eq (by simp; omega), fun h => BitVec.eq_of_toNat_eq ?_⟩
    rw [h] at h2
    have h0 : (0 : Byte).toNat = 0 := rfl
    rw [h0] at h2
    omega
  unfold linePoints
  rw [absDiff_comm x2 x1, absDiff_comm y2 y1]
  by_cases h : absDiff x1 x2 < absDiff y1 y2
  · rw [if_pos h, if_pos h]
    refine ord _ _ _ _ _ (fun e => ?_) _ _
    rw [e, (zero y2 y2).1] at h
    bv_omega
  · rw [if_neg h, if_neg h]
    refine ord _ _ _ _ _ (fun e => ?_) _ _
    rw [e, (zero x2 x2).1] at h
    exact (zero y1 y2).2 (by bv_omega)

theorem lineLoop_endless (swap : Bool) (dx dy ystep : Byte) :
    ∀ (n : Nat) (x y err : Byte), lineLoop swap 255 dx dy ystep n x y err = none := by
  intro n
  induction n with
  | zero => intros; rfl
  | succ n ih =>
    intro x y err
    have h : x ≤ 255 := by bv_omega
    rw [lineLoop, if_pos h]
    simp only [ih]
    simp

/-- **C117**, a finding: a line that reaches the coordinate 255 with its longer side
never ends. -/
theorem C117_endless (x1 y1 x2 y2 : Byte) (n : Nat)
    (h : if ((y2.toNat : Int) - y1.toNat).natAbs ≤ ((x2.toNat : Int) - x1.toNat).natAbs
      then x1 = 255 ∨ x2 = 255 else y1 = 255 ∨ y2 = 255) :
    linePoints n x1 y1 x2 y2 = none := by
  have ord : ∀ swap (a b c d : Byte), a = 255 ∨ c = 255 → ∀ dx dy,
      lineOrder n swap a b c d dx dy = none := by
    intro swap a b c d he dx dy
    unfold lineOrder lineStart
    by_cases h1 : c < a
    · rw [if_pos h1, show a = 255 by bv_omega]
      exact lineLoop_endless ..
    · rw [if_neg h1, show c = 255 by bv_omega]
      exact lineLoop_endless ..
  have ax := absDiff_toNat x1 x2
  have ay := absDiff_toNat y1 y2
  have hlt : absDiff x1 x2 < absDiff y1 y2 ↔
      ¬ ((y2.toNat : Int) - y1.toNat).natAbs ≤ ((x2.toNat : Int) - x1.toNat).natAbs := by
    rw [BitVec.lt_def]; omega
  unfold linePoints
  by_cases hc : ((y2.toNat : Int) - y1.toNat).natAbs ≤ ((x2.toNat : Int) - x1.toNat).natAbs
  · rw [if_neg (fun hh => hlt.1 hh hc)]
    rw [if_pos hc] at h
    exact ord _ _ _ _ _ h _ _
  · rw [if_pos (hlt.2 hc)]
    rw [if_neg hc] at h
    exact ord _ _ _ _ _ h _ _

set_option maxRecDepth 100000 in
/-- **C117**, a finding: a longer line is not straight. The line from (0, 0) to (200, 150)
does not reach its end. -/
theorem C117_too_long : ∃ ps, linePoints 256 0 0 200 150 = some ps ∧
    ((200 : Byte), (150 : Byte)) ∉ ps := by
  refine ⟨(linePoints 256 0 0 200 150).getD [], ?_, ?_⟩ <;> decide +kernel

/-- **C117**, with C116: what the picture loop shows where a line is drawn. The drawing
calls of the line are exactly the points of the straight line. -/
theorem C117_drawn_partial (x1 y1 x2 y2 : Byte)
    (hs : (((x2.toNat : Int) - x1.toNat).natAbs ≤ 128 ∧ ((y2.toNat : Int) - y1.toNat).natAbs ≤ 128)
      ∨ x1 = x2 ∨ y1 = y2)
    (he : if ((y2.toNat : Int) - y1.toNat).natAbs ≤ ((x2.toNat : Int) - x1.toNat).natAbs
      then x1 ≠ 255 ∧ x2 ≠ 255 else y1 ≠ 255 ∧ y2 ≠ 255) :
    ∃ ps, linePoints 256 x1 y1 x2 y2 = some ps ∧ Allowed (.dots ps) ∧
      IsLine x1.toNat y1.toNat x2.toNat y2.toNat
        (fun (x y : Int) => ∃ px py : Byte, x = px.toNat ∧ y = py.toNat ∧ Covers (.dots ps) px py) := by
  obtain ⟨ps, h1, _, h3⟩ := C117_line_partial x1 y1 x2 y2 256 (by decide) hs he
  refine ⟨ps, h1, trivial, ?_⟩
  have e : PointsOf ps = (fun (x y : Int) => ∃ px py : Byte, x = px.toNat ∧ y = py.toNat ∧
      Covers (.dots ps) px py) := by
    funext x y
    apply propext
    constructor
    · rintro ⟨⟨px, py⟩, hp, e1, e2⟩; exact ⟨px, py, e1, e2, hp⟩
    · rintro ⟨px, py, e1, e2, hp⟩; exact ⟨(px, py), hp, e1, e2⟩
  rw [← e]
  exact h3

/-- The line from (3, 10) to (9, 7): seven points, each at most half a point off. -/
example : linePoints 256 3 10 9 7 =
    some [(3, 10), (4, 10), (5, 9), (6, 9), (7, 8), (8, 8), (9, 7)] := by decide +kernel

end Verif.U8g
