import Verif.U8g.Model

/-!
# What the drawing functions do to the page buffer

Helper lemmas: every drawing function sets exactly the points of its figure that lie on
the current page.
-/

namespace Verif.U8g

/-- The page lies on the display and has at most eight rows. -/
structure PageOk (b : Pb) : Prop where
  width : 0 < b.width
  order : b.p.y0 ≤ b.p.y1
  rows : b.p.y1 - b.p.y0 < 8
  height : b.p.y1 < b.p.totalHeight

/-- The point of the user lies on the current page. -/
def OnPage (r : Rot) (b : Pb) (x y : Byte) : Prop :=
  rotX r b x y < b.width ∧ b.p.y0 ≤ rotY r b x y ∧ rotY r b x y ≤ b.p.y1

/-- The bit of the buffer for a point of the user. -/
def shown (r : Rot) (b : Pb) (x y : Byte) : Bool :=
  (b.mem (rotX r b x y).toNat).getLsbD (rotY r b x y - b.p.y0).toNat

open Classical in
/-- `b'` is `b` after the points of `S` were set to colour `c`. -/
structure Paints (r : Rot) (c : Byte) (b b' : Pb) (S : Byte → Byte → Prop) : Prop where
  p : b'.p = b.p
  width : b'.width = b.width
  on : ∀ x y, OnPage r b x y →
    shown r b' x y = if S x y then decide (c ≠ 0) else shown r b x y
  off : ∀ i, b.width.toNat ≤ i → b'.mem i = b.mem i

theorem rotX_congr {r b b'} (hp : b'.p = b.p) (hw : b'.width = b.width) (x y : Byte) :
    rotX r b' x y = rotX r b x y := by
  cases r <;> simp [rotX, hw]

theorem rotY_congr {r b b'} (hp : b'.p = b.p) (x y : Byte) :
    rotY r b' x y = rotY r b x y := by
  cases r <;> simp [rotY, hp]

theorem onPage_congr {r b b'} (hp : b'.p = b.p) (hw : b'.width = b.width) (x y : Byte) :
    OnPage r b' x y ↔ OnPage r b x y := by
  unfold OnPage
  rw [rotX_congr hp hw, rotY_congr hp, hp, hw]

theorem pageOk_congr {b b' : Pb} (hp : b'.p = b.p) (hw : b'.width = b.width)
    (h : PageOk b) : PageOk b' :=
  ⟨by rw [hw]; exact h.width, by rw [hp]; exact h.order, by rw [hp]; exact h.rows,
    by rw [hp]; exact h.height⟩

theorem Paints.refl (r c b) {S : Byte → Byte → Prop}
    (h : ∀ x y, OnPage r b x y → ¬ S x y) : Paints r c b b S :=
  ⟨rfl, rfl, fun x y ho => by rw [if_neg (h x y ho)], fun _ _ => rfl⟩

theorem Paints.trans {r c b b' b''} {S T : Byte → Byte → Prop}
    (h1 : Paints r c b b' S) (h2 : Paints r c b' b'' T) :
    Paints r c b b'' (fun x y => S x y ∨ T x y) := by
  refine ⟨h2.p.trans h1.p, h2.width.trans h1.width, fun x y ho => ?_, fun i hi => ?_⟩
  · rw [h2.on x y ((onPage_congr h1.p h1.width x y).2 ho), h1.on x y ho]
    by_cases hS : S x y <;> by_cases hT : T x y <;> simp [hS, hT]
  · rw [h2.off i (by rw [h1.width]; exact hi), h1.off i hi]

theorem Paints.congr {r c b b'} {S T : Byte → Byte → Prop} (h : Paints r c b b' S)
    (e : ∀ x y, OnPage r b x y → (S x y ↔ T x y)) : Paints r c b b' T := by
  refine ⟨h.p, h.width, fun x y ho => ?_, h.off⟩
  rw [h.on x y ho]
  by_cases hS : S x y
  · rw [if_pos hS, if_pos ((e x y ho).1 hS)]
  · rw [if_neg hS, if_neg (fun hT => hS ((e x y ho).2 hT))]

theorem rot_inj {r b} {x y x' y' : Byte} :
    rotX r b x y = rotX r b x' y' → rotY r b x y = rotY r b x' y' → x = x' ∧ y = y' := by
  cases r <;> simp only [rotX, rotY] <;> intro h1 h2 <;> constructor <;> bv_omega

theorem and7 (v : Byte) (h : v < 8) : v &&& 7 = v := by
  revert h; revert v; decide +kernel

theorem or_mask_bit (m d e : Byte) (hd : d < 8) (he : e < 8) :
    (m ||| ((1 : Byte) <<< d.toNat)).getLsbD e.toNat = (decide (e = d) || m.getLsbD e.toNat) := by
  have h1 : e.toNat < 8 := by bv_omega
  rw [BitVec.getLsbD_or, BitVec.getLsbD_shiftLeft]
  have h2 : e = d ↔ e.toNat = d.toNat := ⟨fun h => by rw [h], fun h => BitVec.eq_of_toNat_eq h⟩
  by_cases h : e = d
  · subst h
    simp [h1]
  · have hne : e.toNat ≠ d.toNat := fun hh => h (h2.2 hh)
    have : (BitVec.getLsbD (1#8) (e.toNat - d.toNat)) = true → e.toNat - d.toNat = 0 := by
      intro hh; simpa [BitVec.getLsbD_one] using hh
    by_cases hlt : e.toNat < d.toNat
    · simp [h, hlt]
    · have h3 : BitVec.getLsbD (1#8) (e.toNat - d.toNat) = false := by
        cases hb : BitVec.getLsbD (1#8) (e.toNat - d.toNat) with
        | false => rfl
        | true => have := this hb; omega
      simp [h, hlt, h3]

theorem and_mask_bit (m d e : Byte) (hd : d < 8) (he : e < 8) :
    (m &&& (((1 : Byte) <<< d.toNat) ^^^ 0xff)).getLsbD e.toNat
      = (!decide (e = d) && m.getLsbD e.toNat) := by
  have h1 : e.toNat < 8 := by bv_omega
  have h := or_mask_bit 0 d e hd he
  rw [BitVec.getLsbD_or] at h
  have h0 : BitVec.getLsbD (0 : Byte) e.toNat = false := by simp
  rw [h0, Bool.false_or, Bool.or_false] at h
  rw [BitVec.getLsbD_and, BitVec.getLsbD_xor, h]
  have hff : BitVec.getLsbD (0xff : Byte) e.toNat = true := by
    have : ∀ k : Byte, k < 8 → BitVec.getLsbD (0xff : Byte) k.toNat = true := by decide +kernel
    exact this e he
  rw [hff]
  cases decide (e = d) <;> cases m.getLsbD e.toNat <;> rfl

theorem paints_pixel {b} (hb : PageOk b) (r : Rot) (c x y : Byte) :
    Paints r c b (pbSetPixel b (rotX r b x y) (rotY r b x y) c)
      (fun x' y' => x' = x ∧ y' = y) := by
  have hw := hb.width; have ho := hb.order; have hr := hb.rows; have hh := hb.height
  by_cases hv : OnPage r b x y
  · obtain ⟨v1, v2, v3⟩ := hv
    have e : pbSetPixel b (rotX r b x y) (rotY r b x y) c
        = setPixelRaw b (rotX r b x y) (rotY r b x y) c := by
      unfold pbSetPixel
      rw [if_neg (by bv_omega), if_neg (by bv_omega), if_neg (by bv_omega)]
    rw [e]
    have hd : rotY r b x y - b.p.y0 < 8 := by bv_omega
    have hp : (setPixelRaw b (rotX r b x y) (rotY r b x y) c).p = b.p := by
      unfold setPixelRaw; by_cases hc : c ≠ 0
      · rw [if_pos hc]; rfl
      · rw [if_neg hc]; rfl
    have hwd : (setPixelRaw b (rotX r b x y) (rotY r b x y) c).width = b.width := by
      unfold setPixelRaw; by_cases hc : c ≠ 0
      · rw [if_pos hc]; rfl
      · rw [if_neg hc]; rfl
    refine ⟨hp, hwd, fun x' y' ho' => ?_, fun i hi => ?_⟩
    · obtain ⟨w1, w2, w3⟩ := ho'
      have he : rotY r b x' y' - b.p.y0 < 8 := by bv_omega
      unfold shown
      rw [rotX_congr hp hwd, rotY_congr hp, hp]
      unfold setPixelRaw
      simp only [and7 _ hd]
      by_cases hX : rotX r b x' y' = rotX r b x y
      · have hiff : (rotY r b x' y' - b.p.y0 = rotY r b x y - b.p.y0)
            ↔ (x' = x ∧ y' = y) := by
          constructor
          · intro h
            exact rot_inj (r := r) (b := b) hX (by bv_omega)
          · rintro ⟨rfl, rfl⟩; rfl
        by_cases hc : c ≠ 0
        · rw [if_pos hc]
          simp only [poke, hX, if_true]
          rw [or_mask_bit _ _ _ hd he]
          by_cases hq : x' = x ∧ y' = y
          · rw [if_pos hq, decide_eq_true (hiff.2 hq), decide_eq_true hc]; rfl
          · rw [if_neg hq, decide_eq_false (fun h => hq (hiff.1 h))]; rfl
        · rw [if_neg hc]
          simp only [poke, hX, if_true]
          rw [and_mask_bit _ _ _ hd he]
          by_cases hq : x' = x ∧ y' = y
          · rw [if_pos hq, decide_eq_true (hiff.2 hq), decide_eq_false hc]; rfl
          · rw [if_neg hq, decide_eq_false (fun h => hq (hiff.1 h))]; rfl
      · have hq : ¬ (x' = x ∧ y' = y) := by
          rintro ⟨rfl, rfl⟩; exact hX rfl
        have hX' : (rotX r b x' y').toNat ≠ (rotX r b x y).toNat :=
          fun h => hX (BitVec.eq_of_toNat_eq h)
        rw [if_neg hq]
        by_cases hc : c ≠ 0
        · rw [if_pos hc]; simp only [poke, if_neg hX']
        · rw [if_neg hc]; simp only [poke, if_neg hX']
    · have hne : i ≠ (rotX r b x y).toNat := by
        have : (rotX r b x y).toNat < b.width.toNat := by bv_omega
        omega
      unfold setPixelRaw
      by_cases hc : c ≠ 0
      · rw [if_pos hc]; simp only [poke, if_neg hne]
      · rw [if_neg hc]; simp only [poke, if_neg hne]
  · have e : pbSetPixel b (rotX r b x y) (rotY r b x y) c = b := by
      unfold pbSetPixel
      by_cases h1 : rotY r b x y < b.p.y0
      · rw [if_pos h1]
      · rw [if_neg h1]
        by_cases h2 : b.p.y1 < rotY r b x y
        · rw [if_pos h2]
        · rw [if_neg h2]
          by_cases h3 : b.width ≤ rotX r b x y
          · rw [if_pos h3]
          · exact absurd ⟨by bv_omega, by bv_omega, by bv_omega⟩ hv
    rw [e]
    refine Paints.refl r c b fun x' y' ho' hs => hv ?_
    rw [← hs.1, ← hs.2]; exact ho'

/-- One of the four directions. -/
def IsDir (dir : Byte) : Prop := dir = 0 ∨ dir = 1 ∨ dir = 2 ∨ dir = 3

theorem rotX_step {r b} {x y dir : Byte} (hd : IsDir dir) :
    rotX r b x y + stepX (rotDir r dir) = rotX r b (x + stepX dir) (y + stepY dir) := by
  cases r <;> rcases hd with rfl | rfl | rfl | rfl <;>
    simp only [rotX, rotDir, stepX, stepY] <;> simp <;> bv_omega

theorem rotY_step {r b} {x y dir : Byte} (hd : IsDir dir) :
    rotY r b x y + stepY (rotDir r dir) = rotY r b (x + stepX dir) (y + stepY dir) := by
  cases r <;> rcases hd with rfl | rfl | rfl | rfl <;>
    simp only [rotY, rotDir, stepX, stepY] <;> simp <;> bv_omega

/-- The points of a row of `n` pixels, the first one in the highest bit. -/
def Row (n : Nat) (x y dir pixel : Byte) (x' y' : Byte) : Prop :=
  ∃ i, i < n ∧ i < 8 ∧ pixel.getLsbD (7 - i) = true ∧
    x' = x + BitVec.ofNat 8 i * stepX dir ∧ y' = y + BitVec.ofNat 8 i * stepY dir

theorem test_bit7 (p : Byte) : (p &&& 128 ≠ 0) ↔ p.getLsbD 7 = true := by
  revert p; decide +kernel

theorem shl_bit (p : Byte) (i : Nat) (h : i < 7) :
    (p <<< 1).getLsbD (7 - i) = p.getLsbD (7 - (i + 1)) := by
  rw [BitVec.getLsbD_shiftLeft]
  have : 7 - i < 8 := by omega
  have h2 : 7 - i - 1 = 7 - (i + 1) := by omega
  simp [this, h2]
  omega

theorem ofNat_succ_mul (i : Nat) (s : Byte) :
    BitVec.ofNat 8 (i + 1) * s = s + BitVec.ofNat 8 i * s := by
  rw [BitVec.ofNat_add]
  have : (BitVec.ofNat 8 i + BitVec.ofNat 8 1) * s = BitVec.ofNat 8 i * s + s := by
    rw [BitVec.mul_comm, BitVec.mul_add, BitVec.mul_comm]
    have h1 : s * BitVec.ofNat 8 1 = s := BitVec.mul_one s
    rw [h1]
  rw [this, BitVec.add_comm]

theorem row_step (n : Nat) (x y dir pixel x' y' : Byte) :
    Row (n + 1) x y dir pixel x' y' ↔
      ((pixel.getLsbD 7 = true ∧ x' = x ∧ y' = y) ∨
        Row n (x + stepX dir) (y + stepY dir) dir (pixel <<< 1) x' y') := by
  constructor
  · rintro ⟨i, h1, h2, h3, h4, h5⟩
    cases i with
    | zero =>
      left
      refine ⟨h3, ?_, ?_⟩
      · rw [h4]; simp
      · rw [h5]; simp
    | succ i =>
      right
      refine ⟨i, by omega, by omega, ?_, ?_, ?_⟩
      · rw [shl_bit _ _ (by omega)]; exact h3
      · rw [h4, ofNat_succ_mul, BitVec.add_assoc]
      · rw [h5, ofNat_succ_mul, BitVec.add_assoc]
  · rintro (⟨h1, h2, h3⟩ | ⟨i, h1, h2, h3, h4, h5⟩)
    · exact ⟨0, by omega, by omega, h1, by rw [h2]; simp, by rw [h3]; simp⟩
    · have hi : i < 7 := by
        by_cases h : i < 7
        · exact h
        · have : i = 7 := by omega
          subst this
          simp at h3
      refine ⟨i + 1, by omega, by omega, ?_, ?_, ?_⟩
      · rw [shl_bit _ _ hi] at h3; exact h3
      · rw [h4, ofNat_succ_mul, BitVec.add_assoc]
      · rw [h5, ofNat_succ_mul, BitVec.add_assoc]

theorem paints_set8Loop {r : Rot} {c dir : Byte} (hd : IsDir dir) :
    ∀ (n : Nat) (b : Pb) (x y pixel : Byte), PageOk b →
      Paints r c b
        (set8Loop n b (rotX r b x y) (rotY r b x y) (stepX (rotDir r dir))
          (stepY (rotDir r dir)) c pixel)
        (Row n x y dir pixel) := by
  intro n
  induction n with
  | zero =>
    intro b x y pixel _
    exact Paints.refl r c b fun x' y' _ h => by obtain ⟨i, h, _⟩ := h; omega
  | succ n ih =>
    intro b x y pixel hb
    rw [set8Loop]
    have h1 : Paints r c b
        (if pixel &&& 128 ≠ 0 then pbSetPixel b (rotX r b x y) (rotY r b x y) c else b)
        (fun x' y' => pixel.getLsbD 7 = true ∧ x' = x ∧ y' = y) := by
      by_cases hp : pixel &&& 128 ≠ 0
      · rw [if_pos hp]
        refine (paints_pixel hb r c x y).congr fun x' y' _ => ?_
        simp [(test_bit7 pixel).1 hp]
      · rw [if_neg hp]
        exact Paints.refl r c b fun x' y' _ h => hp ((test_bit7 pixel).2 h.1)
    generalize hbb : (if pixel &&& 128 ≠ 0 then pbSetPixel b (rotX r b x y) (rotY r b x y) c
      else b) = bb at h1 ⊢
    show Paints r c b (if pixel <<< 1 = 0 then bb else _) _
    by_cases hz : pixel <<< 1 = 0
    · rw [if_pos hz]
      refine h1.congr fun x' y' _ => ?_
      rw [row_step]
      constructor
      · intro h; exact Or.inl h
      · rintro (h | ⟨i, _, _, h3, _⟩)
        · exact h
        · rw [hz] at h3; simp at h3
    · rw [if_neg hz]
      have e1 : rotX r b x y + stepX (rotDir r dir)
          = rotX r bb (x + stepX dir) (y + stepY dir) := by
        rw [rotX_congr h1.p h1.width]; exact rotX_step hd
      have e2 : rotY r b x y + stepY (rotDir r dir)
          = rotY r bb (x + stepX dir) (y + stepY dir) := by
        rw [rotY_congr h1.p]; exact rotY_step hd
      rw [e1, e2]
      refine (h1.trans (ih bb (x + stepX dir) (y + stepY dir) (pixel <<< 1)
        (pageOk_congr h1.p h1.width hb))).congr fun x' y' _ => ?_
      rw [row_step]

end Verif.U8g
