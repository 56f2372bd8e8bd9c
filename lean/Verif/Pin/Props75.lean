import Verif.Pin.Pulse

/-!
# C75: measuring pulses and reading the DHT sensors
-/

namespace Verif.Pulse

open Verif

/-! ## Specification -/

/-- From the `i`-th reading on the line is at `level` for exactly `n` readings. -/
def Run (σ : Nat → Bool) (i : Nat) (level : Bool) (n : Nat) : Prop := (∀ k, k < n → σ (i + k) = level) ∧ σ (i + n) ≠ level

/-- Pulses, each a low and a high part with their lengths in readings (the reading that ends a part is not counted again). -/
def Pulses (σ : Nat → Bool) : Nat → List (Nat × Nat) → Prop
  | _, [] => True
  | i, (l, h) :: t => Run σ i false l ∧ Run σ (i + l + 1) true h ∧ Pulses σ (i + l + 1 + h + 1) t

/-- The sensor answers: low, high, then 40 pulses, no part longer than the time limit. -/
structure Answer (σ : Nat → Bool) (max : Nat) (ps : List (Nat × Nat)) : Prop where
  answers : ∃ a b, 1 ≤ a ∧ a ≤ max ∧ Run σ 0 false a ∧ 1 ≤ b ∧ b ≤ max ∧ Run σ (a + 1) true b ∧ Pulses σ (a + b + 2) ps
  forty : ps.length = 40
  intime : ∀ p ∈ ps, p.1 ≤ max ∧ p.2 ≤ max

/-- The number with these bits, most significant first. -/
def number (bits : List Bool) : Nat := bits.foldl (fun a b => 2 * a + b.toNat) 0

/-- The `k`-th byte of the message. -/
def byteAt (bits : List Bool) (k : Nat) : Nat := number ((bits.drop (8 * k)).take 8)

/-- The last byte is the sum of the others. -/
def ChecksumOk (bits : List Bool) : Prop :=
  byteAt bits 4 = (byteAt bits 0 + byteAt bits 1 + byteAt bits 2 + byteAt bits 3) % 256

/-- Humidity and temperature (sign and magnitude) in hundredths; the DHT22 sends 16-bit tenths, the DHT11 whole units. -/
def measured (dht22 : Bool) (bits : List Bool) : Int × Int :=
  let b := fun k => (byteAt bits k : Int)
  let sign := if byteAt bits 2 / 128 = 1 then -1 else 1
  let m := ((byteAt bits 2 % 128 : Nat) : Int)
  if dht22 then (10 * (256 * b 0 + b 1), sign * 10 * (256 * m + b 3)) else (100 * b 0, sign * 100 * m)

/-! ## Lemmas -/

theorem expectPulse_cases (σ : Nat → Bool) (level : Bool) : ∀ left count i,
    (∃ n, n ≤ left ∧ Run σ i level n ∧ expectPulse σ level left count i = (count + n, i + n + 1)) ∨
    (∀ k, k ≤ left → σ (i + k) = level) ∧ expectPulse σ level left count i = (0, i + left + 1) := by
  intro left
  induction left with
  | zero =>
    intro count i
    by_cases h : σ i = level
    · right
      refine ⟨fun k hk => ?_, ?_⟩
      · rw [show k = 0 by omega]; exact h
      · rw [expectPulse, if_pos h]
    · left
      refine ⟨0, Nat.le_refl _, ⟨fun k hk => absurd hk (by omega), h⟩, ?_⟩
      rw [expectPulse, if_neg h]; rfl
  | succ left ih =>
    intro count i
    by_cases h : σ i = level
    · rw [expectPulse, if_pos h]
      rcases ih (count + 1) (i + 1) with ⟨n, h1, ⟨h2, h2'⟩, h3⟩ | ⟨h1, h2⟩
      · left
        refine ⟨n + 1, by omega, ⟨fun k hk => ?_, ?_⟩, ?_⟩
        · rcases k with _ | k
          · exact h
          · have := h2 k (by omega)
            rw [show i + (k + 1) = i + 1 + k by omega]; exact this
        · rw [show i + (n + 1) = i + 1 + n by omega]; exact h2'
        · rw [h3, show count + 1 + n = count + (n + 1) by omega, show i + 1 + n + 1 = i + (n + 1) + 1 by omega]
      · right
        refine ⟨fun k hk => ?_, ?_⟩
        · rcases k with _ | k
          · exact h
          · have := h1 k (by omega)
            rw [show i + (k + 1) = i + 1 + k by omega]; exact this
        · rw [h2, show i + 1 + left + 1 = i + (left + 1) + 1 by omega]
    · left
      refine ⟨0, by omega, ⟨fun k hk => absurd hk (by omega), h⟩, ?_⟩
      rw [expectPulse, if_neg h]; rfl

theorem Run.unique {σ : Nat → Bool} {i : Nat} {level : Bool} {n m : Nat} (h : Run σ i level n) (g : Run σ i level m) : n = m := by
  rcases Nat.lt_trichotomy n m with q | q | q
  · exact absurd (g.1 n q) h.2
  · exact q
  · exact absurd (h.1 m q) g.2

theorem expectPulse_run {σ : Nat → Bool} {level : Bool} {max i n : Nat} (h : Run σ i level n) (hn : n ≤ max) :
    expectPulse σ level max 0 i = (n, i + n + 1) := by
  rcases expectPulse_cases σ level max 0 i with ⟨m, h1, h2, h3⟩ | ⟨h1, h2⟩
  · rw [h3, h.unique h2, Nat.zero_add]
  · exact absurd (h1 n hn) h.2

theorem expectPulse_pos {σ : Nat → Bool} {level : Bool} {max i : Nat} (h : (expectPulse σ level max 0 i).1 ≠ 0) :
    ∃ n, n ≤ max ∧ 1 ≤ n ∧ Run σ i level n ∧ expectPulse σ level max 0 i = (n, i + n + 1) := by
  rcases expectPulse_cases σ level max 0 i with ⟨m, h1, h2, h3⟩ | ⟨h1, h2⟩
  · rw [h3] at h
    dsimp only at h
    exact ⟨m, h1, by omega, h2, by rw [h3, Nat.zero_add]⟩
  · rw [h2] at h; exact absurd rfl h

/-- The counts as the code keeps them: in bytes. -/
def inBytes (ps : List (Nat × Nat)) : List (Byte × Byte) := ps.map fun p => (BitVec.ofNat 8 p.1, BitVec.ofNat 8 p.2)

theorem readPulses_of {σ : Nat → Bool} {max : Nat} : ∀ (ps : List (Nat × Nat)) i, Pulses σ i ps → (∀ p ∈ ps, p.1 ≤ max ∧ p.2 ≤ max) →
    readPulses σ max ps.length i = inBytes ps := by
  intro ps
  induction ps with
  | nil => intro i _ _; rfl
  | cons p t ih =>
    intro i h hm
    obtain ⟨l, u⟩ := p
    obtain ⟨h1, h2, h3⟩ := h
    obtain ⟨m1, m2⟩ := hm (l, u) List.mem_cons_self
    show readPulses σ max (t.length + 1) i = _
    rw [readPulses, expectPulse_run h1 m1]
    dsimp only
    rw [expectPulse_run h2 m2]
    dsimp only
    rw [ih _ h3 (fun p hp => hm p (List.mem_cons_of_mem _ hp))]
    rfl

theorem pulses_of_read {σ : Nat → Bool} {max : Nat} : ∀ n i, (∀ c ∈ readPulses σ max n i, c.1 ≠ 0#8 ∧ c.2 ≠ 0#8) →
    ∃ ps, ps.length = n ∧ Pulses σ i ps ∧ (∀ p ∈ ps, p.1 ≤ max ∧ p.2 ≤ max) := by
  intro n
  induction n with
  | zero => intro i _; exact ⟨[], rfl, trivial, fun p hp => absurd hp List.not_mem_nil⟩
  | succ n ih =>
    intro i h
    rw [readPulses] at h
    obtain ⟨q1, q2⟩ := h _ List.mem_cons_self
    dsimp only at q1 q2
    have hz : ∀ k : Nat, BitVec.ofNat 8 k ≠ 0#8 → k ≠ 0 := fun k hk e => hk (by rw [e])
    obtain ⟨l, l1, -, l2, l3⟩ := expectPulse_pos (hz _ q1)
    obtain ⟨u, u1, -, u2, u3⟩ := expectPulse_pos (hz _ q2)
    rw [l3] at u2 u3 h
    dsimp only at u2 u3 h
    rw [u3] at h
    obtain ⟨ps, p1, p2, p3⟩ := ih _ (fun c hc => h c (List.mem_cons_of_mem _ hc))
    dsimp only at p2
    refine ⟨(l, u) :: ps, by rw [List.length_cons, p1], ⟨l2, u2, p2⟩, ?_⟩
    intro p hp
    rcases List.mem_cons.1 hp with rfl | hp
    · exact ⟨l1, u1⟩
    · exact p3 p hp

/-- The bits of the pulses. -/
def bitsOf (cs : List (Byte × Byte)) : List Bool := cs.map fun c => decide (c.1 < c.2)

def shiftIn (v : Byte) (bits : List Bool) : Byte := bits.foldl (fun v b => v <<< 1 ||| if b then 1#8 else 0#8) v

theorem eval_chunk (rest : List (Byte × Byte)) : ∀ (a : List (Byte × Byte)) i (data : Nat → Byte), i % 8 + a.length ≤ 8 →
    (∀ c ∈ a, c.1 ≠ 0#8 ∧ c.2 ≠ 0#8) →
    evalPulses (a ++ rest) i data = evalPulses rest (i + a.length) (fun k => if k = i / 8 then shiftIn (data (i / 8)) (bitsOf a) else data k) := by
  intro a
  induction a with
  | nil =>
    intro i data _ _
    congr 1
    funext k
    by_cases h : k = i / 8
    · rw [if_pos h, h]; rfl
    · rw [if_neg h]
  | cons c a ih =>
    intro i data hl hc
    obtain ⟨low, high⟩ := c
    obtain ⟨c1, c2⟩ := hc (low, high) List.mem_cons_self
    dsimp only at c1 c2
    have hl' : i % 8 + (a.length + 1) ≤ 8 := hl
    show evalPulses ((low, high) :: (a ++ rest)) i data = _
    rw [evalPulses, if_neg (by rintro (h | h) <;> contradiction)]
    dsimp only
    have hb : (if high > low then data (i / 8) <<< 1 ||| 1#8 else data (i / 8) <<< 1) =
        data (i / 8) <<< 1 ||| if decide (low < high) then 1#8 else 0#8 := by
      by_cases h : low < high
      · rw [if_pos h, if_pos (decide_eq_true h)]
      · rw [if_neg h, if_neg (by rw [decide_eq_true_eq]; exact h), BitVec.or_zero]
    rw [hb]
    rcases a with _ | ⟨c', a⟩
    · rfl
    · rw [List.length_cons] at hl'
      rw [ih (i + 1) _ (by rw [List.length_cons]; omega) (fun c hc' => hc c (List.mem_cons_of_mem _ hc'))]
      have hd : (i + 1) / 8 = i / 8 := by omega
      rw [hd, if_pos rfl, List.length_cons, List.length_cons, List.length_cons, show i + 1 + (a.length + 1) = i + (a.length + 1 + 1) by omega]
      congr 1
      funext k
      by_cases h : k = i / 8
      · rw [if_pos h, if_pos h]; rfl
      · rw [if_neg h, if_neg h, if_neg h]

theorem shiftIn_number : ∀ (bits : List Bool) (v : Byte) (m : Nat), v = BitVec.ofNat 8 m →
    shiftIn v bits = BitVec.ofNat 8 (bits.foldl (fun a b => 2 * a + b.toNat) m) := by
  intro bits
  induction bits with
  | nil => intro v m h; exact h
  | cons b t ih =>
    intro v m h
    show shiftIn (v <<< 1 ||| if b then 1#8 else 0#8) t = _
    refine ih _ (2 * m + b.toNat) ?_
    rw [h]
    apply BitVec.eq_of_toNat_eq
    rw [BitVec.toNat_or, BitVec.toNat_shiftLeft, BitVec.toNat_ofNat, BitVec.toNat_ofNat, Nat.shiftLeft_eq]
    have hx : (m % 2 ^ 8 * 2 ^ 1) % 2 ^ 8 = 2 * (m % 128) := by omega
    rw [hx]
    cases b
    · show 2 * (m % 128) ||| 0 = _
      rw [Nat.or_zero]
      show _ = (2 * m + 0) % 256
      omega
    · show 2 * (m % 128) ||| 1 = (2 * m + 1) % 256
      have : 2 * (m % 128) ||| 1 = 2 * (m % 128) + 1 := by
        have := Nat.two_pow_add_eq_or_of_lt (i := 1) (b := 1) (by omega) (m % 128)
        rw [show 2 ^ 1 * (m % 128) = 2 * (m % 128) from rfl] at this
        exact this.symm
      omega

theorem number_lt (bits : List Bool) (m n : Nat) (h : m < 2 ^ n) : bits.foldl (fun a b => 2 * a + b.toNat) m < 2 ^ (n + bits.length) := by
  induction bits generalizing m n with
  | nil => exact h
  | cons b t ih =>
    rw [List.foldl_cons, List.length_cons, show n + (t.length + 1) = n + 1 + t.length by omega]
    refine ih _ _ ?_
    rw [Nat.pow_succ]
    cases b <;> simp <;> omega

theorem byteAt_lt (bits : List Bool) (k : Nat) : byteAt bits k < 256 := by
  have h := number_lt ((bits.drop (8 * k)).take 8) 0 0 (by decide)
  have : ((bits.drop (8 * k)).take 8).length ≤ 8 := List.length_take_le _ _
  have h2 := Nat.pow_le_pow_right (show 0 < 2 by decide) (show 0 + ((bits.drop (8 * k)).take 8).length ≤ 8 by omega)
  exact Nat.lt_of_lt_of_le h h2

/-- The five bytes after evaluating 40 pulses. -/
theorem eval_forty (cs : List (Byte × Byte)) (hl : cs.length = 40) (hc : ∀ c ∈ cs, c.1 ≠ 0#8 ∧ c.2 ≠ 0#8) (data : Nat → Byte)
    (h0 : ∀ k < 5, data k = 0#8) :
    (evalPulses cs 0 data).2 = .none ∧ ∀ k < 5, (evalPulses cs 0 data).1 k = BitVec.ofNat 8 (byteAt (bitsOf cs) k) := by
  have split : ∀ (n : Nat) (l : List (Byte × Byte)), l.length = 8 + n → ∃ a b, l = a ++ b ∧ a.length = 8 ∧ b.length = n := fun n l h =>
    ⟨l.take 8, l.drop 8, (List.take_append_drop 8 l).symm, by rw [List.length_take]; omega, by rw [List.length_drop]; omega⟩
  obtain ⟨c0, r0, rfl, l0, k0⟩ := split 32 cs hl
  obtain ⟨c1, r1, rfl, l1, k1⟩ := split 24 r0 k0
  obtain ⟨c2, r2, rfl, l2, k2⟩ := split 16 r1 k1
  obtain ⟨c3, r3, rfl, l3, k3⟩ := split 8 r2 k2
  have m0 : ∀ c ∈ c0, c.1 ≠ 0#8 ∧ c.2 ≠ 0#8 := fun c h => hc c (by simp [h])
  have m1 : ∀ c ∈ c1, c.1 ≠ 0#8 ∧ c.2 ≠ 0#8 := fun c h => hc c (by simp [h])
  have m2 : ∀ c ∈ c2, c.1 ≠ 0#8 ∧ c.2 ≠ 0#8 := fun c h => hc c (by simp [h])
  have m3 : ∀ c ∈ c3, c.1 ≠ 0#8 ∧ c.2 ≠ 0#8 := fun c h => hc c (by simp [h])
  have m4 : ∀ c ∈ r3, c.1 ≠ 0#8 ∧ c.2 ≠ 0#8 := fun c h => hc c (by simp [h])
  rw [eval_chunk _ c0 0 _ (by omega) m0, l0, eval_chunk _ c1 (0 + 8) _ (by omega) m1, l1, eval_chunk _ c2 (0 + 8 + 8) _ (by omega) m2, l2,
    eval_chunk _ c3 (0 + 8 + 8 + 8) _ (by omega) m3, l3]
  have e := fun (d : Nat → Byte) => eval_chunk [] r3 (0 + 8 + 8 + 8 + 8) d (by omega) m4
  simp only [List.append_nil] at e
  rw [e]
  refine ⟨rfl, fun k hk => ?_⟩
  have hb : bitsOf (c0 ++ (c1 ++ (c2 ++ (c3 ++ r3)))) = bitsOf c0 ++ (bitsOf c1 ++ (bitsOf c2 ++ (bitsOf c3 ++ bitsOf r3))) := by
    unfold bitsOf; simp only [List.map_append]
  have bl : ∀ c : List (Byte × Byte), (bitsOf c).length = c.length := fun c => List.length_map ..
  have b0 := bl c0
  have b1 := bl c1
  have b2 := bl c2
  have b3 := bl c3
  have b4 := bl r3
  rw [l0] at b0; rw [l1] at b1; rw [l2] at b2; rw [l3] at b3; rw [k3] at b4
  rw [hb]
  unfold byteAt number
  rw [evalPulses]
  dsimp only
  have d8 : ∀ (x y : List Bool) n, x.length = 8 → (x ++ y).drop (8 + n) = y.drop n := fun x y n h => by
    rw [← List.drop_drop, show (8 : Nat) = x.length from h.symm, List.drop_left]
  have t8 : ∀ (x y : List Bool), x.length = 8 → (x ++ y).take 8 = x := fun x y h => by
    rw [show (8 : Nat) = x.length from h.symm, List.take_left]
  rcases (show k = 0 ∨ k = 1 ∨ k = 2 ∨ k = 3 ∨ k = 4 by omega) with rfl | rfl | rfl | rfl | rfl
  · rw [show 8 * 0 = 0 from rfl, List.drop_zero, t8 _ _ b0]
    simp only [Nat.reduceAdd, Nat.reduceDiv, Nat.reduceEqDiff, if_true, if_false]
    exact shiftIn_number _ _ 0 (h0 0 (by decide))
  · rw [show 8 * 1 = 8 + 0 from rfl, d8 _ _ _ b0, List.drop_zero, t8 _ _ b1]
    simp only [Nat.reduceAdd, Nat.reduceDiv, Nat.reduceEqDiff, if_true, if_false]
    exact shiftIn_number _ _ 0 (h0 1 (by decide))
  · rw [show 8 * 2 = 8 + (8 + 0) from rfl, d8 _ _ _ b0, d8 _ _ _ b1, List.drop_zero, t8 _ _ b2]
    simp only [Nat.reduceAdd, Nat.reduceDiv, Nat.reduceEqDiff, if_true, if_false]
    exact shiftIn_number _ _ 0 (h0 2 (by decide))
  · rw [show 8 * 3 = 8 + (8 + (8 + 0)) from rfl, d8 _ _ _ b0, d8 _ _ _ b1, d8 _ _ _ b2, List.drop_zero, t8 _ _ b3]
    simp only [Nat.reduceAdd, Nat.reduceDiv, Nat.reduceEqDiff, if_true, if_false]
    exact shiftIn_number _ _ 0 (h0 3 (by decide))
  · rw [show 8 * 4 = 8 + (8 + (8 + (8 + 0))) from rfl, d8 _ _ _ b0, d8 _ _ _ b1, d8 _ _ _ b2, d8 _ _ _ b3, List.drop_zero,
      List.take_of_length_le (by omega)]
    simp only [Nat.reduceAdd, Nat.reduceDiv, Nat.reduceEqDiff, if_true, if_false]
    exact shiftIn_number _ _ 0 (h0 4 (by decide))

theorem eval_nonzero : ∀ (cs : List (Byte × Byte)) i data, (evalPulses cs i data).2 = .none → ∀ c ∈ cs, c.1 ≠ 0#8 ∧ c.2 ≠ 0#8 := by
  intro cs
  induction cs with
  | nil => intro i data _ c hc; exact absurd hc List.not_mem_nil
  | cons c t ih =>
    intro i data h x hx
    obtain ⟨low, high⟩ := c
    rw [evalPulses] at h
    by_cases q : low = 0#8 ∨ high = 0#8
    · rw [if_pos q] at h; cases h
    · rw [if_neg q] at h
      rcases List.mem_cons.1 hx with rfl | hx
      · exact ⟨fun e => q (Or.inl e), fun e => q (Or.inr e)⟩
      · exact ih _ _ h x hx

/-! ## DHT -/

/-- The bits the code gets from pulses of these lengths: it compares the lengths modulo 256. -/
def codeBits (ps : List (Nat × Nat)) : List Bool := ps.map fun p => decide (p.1 % 256 < p.2 % 256)

/-- Neither part of a pulse has a length divisible by 256 (which the code takes for a timeout). -/
def Countable (ps : List (Nat × Nat)) : Prop := ∀ p ∈ ps, p.1 % 256 ≠ 0 ∧ p.2 % 256 ≠ 0

/-- A reading is due: 2000 ms since the last one, in signed 32-bit arithmetic. -/
def Due (d : Dht) (now : U32) (force : Bool) : Prop := force = true ∨ 2000 ≤ (now - d.lastRead).toInt

instance (d : Dht) (now : U32) (force : Bool) : Decidable (Due d now force) := inferInstanceAs (Decidable (_ ∨ _))
instance (ps : List (Nat × Nat)) : Decidable (Countable ps) := inferInstanceAs (Decidable (∀ p ∈ ps, _))
instance (bits : List Bool) : Decidable (ChecksumOk bits) := inferInstanceAs (Decidable (_ = _))

theorem inBytes_bits (ps : List (Nat × Nat)) : bitsOf (inBytes ps) = codeBits ps := by
  unfold bitsOf inBytes codeBits
  rw [List.map_map]
  apply List.map_congr_left
  intro p _
  show decide (BitVec.ofNat 8 p.1 < BitVec.ofNat 8 p.2) = _
  simp only [BitVec.lt_def, BitVec.toNat_ofNat]

theorem ofNat8_ne_zero (n : Nat) : BitVec.ofNat 8 n ≠ 0#8 ↔ n % 256 ≠ 0 := by
  rw [ne_eq, ← BitVec.toNat_inj, BitVec.toNat_ofNat]
  rfl

theorem countable_inBytes (ps : List (Nat × Nat)) : (∀ c ∈ inBytes ps, c.1 ≠ 0#8 ∧ c.2 ≠ 0#8) ↔ Countable ps := by
  unfold Countable inBytes
  constructor
  · intro h p hp
    have := h _ (List.mem_map_of_mem hp)
    exact ⟨(ofNat8_ne_zero _).1 this.1, (ofNat8_ne_zero _).1 this.2⟩
  · intro h c hc
    obtain ⟨p, hp, rfl⟩ := List.mem_map.1 hc
    exact ⟨(ofNat8_ne_zero _).2 (h p hp).1, (ofNat8_ne_zero _).2 (h p hp).2⟩

/-- The state in which the critical section is entered. -/
def entered (d : Dht) (now : U32) : Dht :=
  { d with error := .none, lastRead := now, data := fun k => if k < 5 then 0#8 else d.data k }

theorem readData_due (d : Dht) (now : U32) (force : Bool) (σ : Nat → Bool) (h : Due d now force) :
    readData d now force σ =
      (if (acquire (entered d now) σ).error ≠ .none then (false, acquire (entered d now) σ)
       else if (acquire (entered d now) σ).data 4 ≠ (acquire (entered d now) σ).data 0 + (acquire (entered d now) σ).data 1 +
          (acquire (entered d now) σ).data 2 + (acquire (entered d now) σ).data 3 then
        (false, { acquire (entered d now) σ with error := .checksum })
       else (true, values (acquire (entered d now) σ))) := by
  unfold readData
  have : ¬((!force && decide ((now - d.lastRead).toInt < 2000)) = true) := by
    rcases h with h | h
    · rw [h]; simp
    · rw [decide_eq_false (by omega)]; simp
  exact (if_neg this).trans rfl

theorem readData_not_due (d : Dht) (now : U32) (force : Bool) (σ : Nat → Bool) (h : ¬Due d now force) :
    readData d now force σ = (false, { d with error := .timerNotReached }) := by
  unfold readData
  unfold Due at h
  have : (!force && decide ((now - d.lastRead).toInt < 2000)) = true := by
    cases force
    · have : (now - d.lastRead).toInt < 2000 := by
        have := fun q => h (Or.inr q)
        omega
      rw [decide_eq_true this]; rfl
    · exact absurd (Or.inl rfl) h
  exact (if_pos this).trans rfl

theorem acquire_answer (d : Dht) (σ : Nat → Bool) (ps : List (Nat × Nat)) (h : Answer σ d.maxcycles ps) :
    acquire d σ = { d with pinInt := true, data := (evalPulses (inBytes ps) 0 d.data).1, error := (evalPulses (inBytes ps) 0 d.data).2 } := by
  obtain ⟨⟨a, b, a1, a2, a3, b1, b2, b3, hp⟩, hl, hm⟩ := h
  unfold acquire
  have ea := expectPulse_run a3 a2
  rw [Nat.zero_add] at ea
  have eb := expectPulse_run b3 b2
  rw [show a + 1 + b + 1 = a + b + 2 by omega] at eb
  have er := readPulses_of ps _ hp hm
  rw [hl] at er
  simp only [ea, eb, er]
  rw [if_neg (by omega), if_neg (by omega)]

theorem ofNat_data (n : Nat) (h : n < 256) : (BitVec.ofNat 8 n).toNat = n := by
  rw [BitVec.toNat_ofNat]
  exact Nat.mod_eq_of_lt h

theorem checksum_bytes {a b c d e : Nat} (he : e < 256) :
    BitVec.ofNat 8 e = BitVec.ofNat 8 a + BitVec.ofNat 8 b + BitVec.ofNat 8 c + BitVec.ofNat 8 d ↔ e = (a + b + c + d) % 256 := by
  rw [← BitVec.toNat_inj]
  simp only [BitVec.toNat_add, BitVec.toNat_ofNat]
  omega

theorem sign_bit (b : Byte) : (b &&& 0x80#8 ≠ 0#8 ↔ b.toNat / 128 = 1) ∧ (0x7f#8 &&& b).toNat = b.toNat % 128 := by
  revert b; decide +kernel

/-- A reading that is due, of a sensor that answers with 40 pulses, is accepted exactly if the checksum is right; the values are then those of the
bits, otherwise they are left as they were. -/
theorem C75_dht_read (d : Dht) (now : U32) (force : Bool) (σ : Nat → Bool) (ps : List (Nat × Nat)) (hd : Due d now force)
    (ha : Answer σ d.maxcycles ps) (hc : Countable ps) :
    let r := readData d now force σ
    (r.1 = true ↔ ChecksumOk (codeBits ps)) ∧
    (r.2.humidity, r.2.temperature) = (if ChecksumOk (codeBits ps) then measured d.dht22 (codeBits ps) else (d.humidity, d.temperature)) ∧
    r.2.error = (if ChecksumOk (codeBits ps) then Err.none else Err.checksum) ∧
    r.2.lastRead = now := by
  have hb := (countable_inBytes ps).2 hc
  have hl : (inBytes ps).length = 40 := by
    unfold inBytes
    rw [List.length_map, ha.forty]
  obtain ⟨e1, e2⟩ := eval_forty (inBytes ps) hl hb (entered d now).data (fun k hk => if_pos hk)
  rw [inBytes_bits] at e2
  dsimp only
  rw [readData_due d now force σ hd, acquire_answer (entered d now) σ ps ha]
  generalize evalPulses (inBytes ps) 0 (entered d now).data = ev at e1 e2
  obtain ⟨data, err⟩ := ev
  dsimp only at e1 e2 ⊢
  subst e1
  rw [if_neg (by simp)]
  have d0 := e2 0 (by decide)
  have d1 := e2 1 (by decide)
  have d2 := e2 2 (by decide)
  have d3 := e2 3 (by decide)
  have d4 := e2 4 (by decide)
  have hs : data 4 = data 0 + data 1 + data 2 + data 3 ↔ ChecksumOk (codeBits ps) := by
    rw [d0, d1, d2, d3, d4]
    exact checksum_bytes (byteAt_lt _ _)
  by_cases hck : ChecksumOk (codeBits ps)
  · rw [if_neg (by rw [ne_eq, Decidable.not_not]; exact hs.2 hck), if_pos hck, if_pos hck]
    refine ⟨iff_of_true rfl hck, ?_, ?_, ?_⟩
    · have t : ∀ k, k < 5 → (data k).toNat = byteAt (codeBits ps) k := fun k hk => by
        rw [e2 k hk, ofNat_data _ (byteAt_lt _ _)]
      obtain ⟨s1, s2⟩ := sign_bit (data 2)
      rw [t 2 (by decide)] at s1 s2
      unfold values measured
      have hlt := byteAt_lt (codeBits ps) 2
      by_cases h22 : d.dht22 = true
      · by_cases hn : byteAt (codeBits ps) 2 / 128 = 1
        · simp only [entered, h22, if_true, if_pos hn, if_pos (s1.2 hn), s2, t 0 (by decide), t 1 (by decide), t 3 (by decide)]
          refine Prod.ext ?_ ?_ <;> dsimp only <;> omega
        · simp only [entered, h22, if_true, if_neg hn, if_neg (fun q => hn (s1.1 q)), t 0 (by decide), t 1 (by decide), t 2 (by decide), t 3 (by decide)]
          refine Prod.ext ?_ ?_ <;> dsimp only <;> omega
      · by_cases hn : byteAt (codeBits ps) 2 / 128 = 1
        · simp only [entered, if_neg h22, if_pos hn, if_pos (s1.2 hn), s2, t 0 (by decide)]
          refine Prod.ext ?_ ?_ <;> dsimp only <;> omega
        · simp only [entered, if_neg h22, if_neg hn, if_neg (fun q => hn (s1.1 q)), t 0 (by decide), t 2 (by decide)]
          refine Prod.ext ?_ ?_ <;> dsimp only <;> omega
    · unfold values
      dsimp only
      split <;> rfl
    · unfold values
      dsimp only
      split <;> rfl
  · rw [if_pos (fun q => hck (hs.1 q)), if_neg hck, if_neg hck]
    exact ⟨iff_of_false (by simp) hck, rfl, rfl, rfl⟩

/-- A reading is only accepted if it was due and the sensor answered with 40 pulses with the right checksum. -/
theorem C75_dht_sound (d : Dht) (now : U32) (force : Bool) (σ : Nat → Bool) (h : (readData d now force σ).1 = true) :
    Due d now force ∧ ∃ ps, Answer σ d.maxcycles ps ∧ Countable ps ∧ ChecksumOk (codeBits ps) := by
  by_cases hd : Due d now force
  · refine ⟨hd, ?_⟩
    have herr : (acquire (entered d now) σ).error = .none := by
      refine Decidable.byContradiction fun q => ?_
      rw [readData_due d now force σ hd, if_pos q] at h
      cases h
    have : ∃ ps, Answer σ d.maxcycles ps ∧ Countable ps := by
      unfold acquire at herr
      dsimp only at herr
      by_cases qa : (expectPulse σ false (entered d now).maxcycles 0 0).1 = 0
      · rw [if_pos qa] at herr; cases herr
      · rw [if_neg qa] at herr
        by_cases qb : (expectPulse σ true (entered d now).maxcycles 0 (expectPulse σ false (entered d now).maxcycles 0 0).2).1 = 0
        · rw [if_pos qb] at herr; cases herr
        · rw [if_neg qb] at herr
          obtain ⟨a, a1, a2, a3, a4⟩ := expectPulse_pos qa
          rw [a4] at qb herr
          obtain ⟨b, b1, b2, b3, b4⟩ := expectPulse_pos qb
          rw [b4] at herr
          have hz := eval_nonzero _ _ _ herr
          obtain ⟨ps, p1, p2, p3⟩ := pulses_of_read 40 _ hz
          dsimp only at b3 p2
          have hr := readPulses_of ps _ p2 p3
          rw [p1] at hr
          rw [Nat.zero_add] at b3 p2 hr
          refine ⟨ps, ⟨⟨a, b, a2, a1, a3, b2, b1, b3, ?_⟩, p1, p3⟩, ?_⟩
          · rw [show a + b + 2 = a + 1 + b + 1 by omega]; exact p2
          · rw [← countable_inBytes, ← hr]
            dsimp only at hz
            rw [Nat.zero_add] at hz
            exact hz
    obtain ⟨ps, h1, h2⟩ := this
    exact ⟨ps, h1, h2, (C75_dht_read d now force σ ps hd h1 h2).1.1 h⟩
  · rw [readData_not_due d now force σ hd] at h
    exact absurd h (by simp)

/-- A reading that is not accepted leaves both values as they were and tells a reason; an accepted one tells none. -/
theorem C75_dht_unchanged (d : Dht) (now : U32) (force : Bool) (σ : Nat → Bool) :
    let r := readData d now force σ
    (r.1 = false → r.2.humidity = d.humidity ∧ r.2.temperature = d.temperature) ∧ (r.1 = true ↔ r.2.error = .none) := by
  dsimp only
  by_cases hd : Due d now force
  · rw [readData_due d now force σ hd]
    have hh : (acquire (entered d now) σ).humidity = d.humidity ∧ (acquire (entered d now) σ).temperature = d.temperature := by
      unfold acquire
      dsimp only
      split
      · exact ⟨rfl, rfl⟩
      · split <;> exact ⟨rfl, rfl⟩
    by_cases q : (acquire (entered d now) σ).error ≠ .none
    · rw [if_pos q]
      exact ⟨fun _ => hh, iff_of_false (by simp) q⟩
    · rw [if_neg q]
      split
      · exact ⟨fun _ => hh, iff_of_false (by simp) (by simp)⟩
      · refine ⟨fun h => (by cases h), iff_of_true rfl ?_⟩
        unfold values
        dsimp only
        split <;> exact Decidable.not_not.1 q
  · rw [readData_not_due d now force σ hd]
    exact ⟨fun _ => ⟨rfl, rfl⟩, iff_of_false (by simp) (by simp)⟩

/-- What the bit is meant to be: a one has the longer high part. -/
def trueBits (ps : List (Nat × Nat)) : List Bool := ps.map fun p => decide (p.1 < p.2)

/-- With parts of 1 to 255 counts the bits are those meant (the property as stated has no such limit). -/
theorem C75_dht_partial (d : Dht) (now : U32) (force : Bool) (σ : Nat → Bool) (ps : List (Nat × Nat)) (hd : Due d now force)
    (ha : Answer σ d.maxcycles ps) (hc : ∀ p ∈ ps, (1 ≤ p.1 ∧ p.1 ≤ 255) ∧ (1 ≤ p.2 ∧ p.2 ≤ 255)) :
    let r := readData d now force σ
    (r.1 = true ↔ ChecksumOk (trueBits ps)) ∧
    (r.2.humidity, r.2.temperature) = (if ChecksumOk (trueBits ps) then measured d.dht22 (trueBits ps) else (d.humidity, d.temperature)) := by
  have hb : codeBits ps = trueBits ps := by
    unfold codeBits trueBits
    refine List.map_congr_left fun p hp => ?_
    obtain ⟨⟨_, h1⟩, ⟨_, h2⟩⟩ := hc p hp
    rw [Nat.mod_eq_of_lt (show p.1 < 256 by omega), Nat.mod_eq_of_lt (show p.2 < 256 by omega)]
  have hcc : Countable ps := fun p hp => by
    obtain ⟨⟨h1, h2⟩, ⟨h3, h4⟩⟩ := hc p hp
    constructor <;> omega
  have := C75_dht_read d now force σ ps hd ha hcc
  rw [hb] at this
  exact ⟨this.1, this.2.1⟩

/-- Since the lengths are kept in bytes, a fast processor reads only zeros: if every low part takes 150 to 255 readings and every high part either 1 to
149 (a zero) or 257 to 405 (a one), any message is accepted as 0 % and 0 degrees. -/
theorem C75_dht_truncated (d : Dht) (now : U32) (force : Bool) (σ : Nat → Bool) (ps : List (Nat × Nat)) (hd : Due d now force)
    (ha : Answer σ d.maxcycles ps)
    (hp : ∀ p ∈ ps, (150 ≤ p.1 ∧ p.1 ≤ 255) ∧ ((1 ≤ p.2 ∧ p.2 ≤ 149) ∨ (257 ≤ p.2 ∧ p.2 ≤ 405))) :
    let r := readData d now force σ
    r.1 = true ∧ r.2.humidity = 0 ∧ r.2.temperature = 0 := by
  have hb : codeBits ps = List.replicate 40 false := by
    rw [← ha.forty, ← List.map_const', codeBits]
    refine List.map_congr_left fun p h => ?_
    rw [decide_eq_false_iff_not]
    obtain ⟨⟨h1, h2⟩, h3⟩ := hp p h
    omega
  have hc : Countable ps := fun p h => by
    obtain ⟨⟨h1, h2⟩, h3⟩ := hp p h
    constructor <;> omega
  have hk : ChecksumOk (List.replicate 40 false) := by decide
  have hr := C75_dht_read d now force σ ps hd ha hc
  rw [hb, if_pos hk] at hr
  obtain ⟨h1, h2, -⟩ := hr
  have hm : measured d.dht22 (List.replicate 40 false) = (0, 0) := by
    cases d.dht22 <;> decide
  rw [hm] at h2
  exact ⟨h1.2 hk, congrArg Prod.fst h2, congrArg Prod.snd h2⟩

/-- When a reading that is not forced is due: within 2^31 ms of the last one as expected, after that not until 2^32 ms. -/
theorem C75_dht_due (d : Dht) (t e : Nat) (he : e < 2 ^ 32) (h : d.lastRead = BitVec.ofNat 32 t) :
    Due d (BitVec.ofNat 32 (t + e)) false ↔ 2000 ≤ e ∧ e < 2 ^ 31 := by
  have hx : BitVec.ofNat 32 (t + e) - d.lastRead = BitVec.ofNat 32 e := by
    rw [h, BitVec.ofNat_add, BitVec.add_comm, BitVec.add_sub_cancel]
  unfold Due
  rw [hx, BitVec.toInt_eq_toNat_cond, BitVec.toNat_ofNat, Nat.mod_eq_of_lt he]
  simp only [Bool.false_eq_true, false_or]
  by_cases q : 2 * e < 2 ^ 32
  · rw [if_pos q]; omega
  · rw [if_neg q]; omega

/-- **C75 (part).** The first reading after `DHTInit`, `t` ms after the start: it is due at once (there is no wait of two seconds), and until 24.9 days
after the start; a pulse may last up to `1000 * perUs` readings of the pin. -/
theorem C75_dht_first (dht22 : Bool) (perUs : Nat) (data : Nat → Byte) (pinInt : Bool) (t : Nat) (ht : t < 2 ^ 32) :
    (Due (dhtInit dht22 perUs data pinInt) (BitVec.ofNat 32 t) false ↔ t < 2 ^ 31 - 2000) ∧
    (dhtInit dht22 perUs data pinInt).maxcycles = 1000 * perUs ∧ (dhtInit dht22 perUs data pinInt).dht22 = dht22 := by
  refine ⟨?_, rfl, rfl⟩
  have hx : BitVec.ofNat 32 t - (dhtInit dht22 perUs data pinInt).lastRead = BitVec.ofNat 32 (t + 2000) := by
    show BitVec.ofNat 32 t - BitVec.ofInt 32 (-2000) = _
    rw [BitVec.ofNat_add, show BitVec.ofInt 32 (-2000) = -(BitVec.ofNat 32 2000) from by decide, BitVec.sub_eq_add_neg, BitVec.neg_neg]
  unfold Due
  rw [hx, BitVec.toInt_eq_toNat_cond, BitVec.toNat_ofNat]
  simp only [Bool.false_eq_true, false_or]
  by_cases q : 2 * ((t + 2000) % 2 ^ 32) < 2 ^ 32
  · rw [if_pos q]; omega
  · rw [if_neg q]; omega

/-- The interrupt of the pin: after a reading that was due it is enabled if the sensor answered, disabled if not, whatever it was before. -/
theorem C75_dht_interrupt (d : Dht) (now : U32) (force : Bool) (σ : Nat → Bool) (hd : Due d now force) :
    (readData d now force σ).2.pinInt = true ↔
      ∃ a b, 1 ≤ a ∧ a ≤ d.maxcycles ∧ Run σ 0 false a ∧ 1 ≤ b ∧ b ≤ d.maxcycles ∧ Run σ (a + 1) true b := by
  have hp : (readData d now force σ).2.pinInt = (acquire (entered d now) σ).pinInt := by
    rw [readData_due d now force σ hd]
    split
    · rfl
    · split
      · rfl
      · unfold values
        dsimp only
        split <;> rfl
  rw [hp]
  unfold acquire
  dsimp only
  show _ ↔ ∃ a b, 1 ≤ a ∧ a ≤ (entered d now).maxcycles ∧ Run σ 0 false a ∧ 1 ≤ b ∧ b ≤ (entered d now).maxcycles ∧ Run σ (a + 1) true b
  by_cases qa : (expectPulse σ false (entered d now).maxcycles 0 0).1 = 0
  · rw [if_pos qa]
    refine iff_of_false (by simp) ?_
    rintro ⟨a, b, a1, a2, a3, -⟩
    rw [expectPulse_run a3 a2] at qa
    dsimp only at qa
    omega
  · rw [if_neg qa]
    obtain ⟨a, a1, a2, a3, a4⟩ := expectPulse_pos qa
    rw [a4, Nat.zero_add]
    dsimp only
    by_cases qb : (expectPulse σ true (entered d now).maxcycles 0 (a + 1)).1 = 0
    · rw [if_pos qb]
      refine iff_of_false (by simp) ?_
      rintro ⟨a', b, a1', a2', a3', b1, b2, b3⟩
      rw [a3'.unique a3] at b3
      rw [expectPulse_run b3 b2] at qb
      dsimp only at qb
      omega
    · rw [if_neg qb]
      obtain ⟨b, b1, b2, b3, b4⟩ := expectPulse_pos qb
      exact iff_of_true rfl ⟨a, b, a2, a1, a3, b2, b1, b3⟩

/-! ## pulseIn -/

/-- How long the line is on one side of `state`. -/
def Stays (σ : Nat → Bool) (state same : Bool) (i n : Nat) : Prop :=
  (∀ k, k < n → (σ (i + k) == state) = same) ∧ (σ (i + n) == state) ≠ same

theorem pulseLoop_stays (σ : Nat → Bool) (state same : Bool) : ∀ n left count i, Stays σ state same i n →
    pulseLoop σ state same left count i = if n ≤ left then some (count + n, left - n, i + n + 1) else none := by
  intro n
  induction n with
  | zero =>
    intro left count i h
    have h0 : ¬((σ i == state) = same) := h.2
    rw [if_pos (Nat.zero_le _)]
    cases left <;> rw [pulseLoop, if_neg h0] <;> rfl
  | succ n ih =>
    intro left count i h
    have h0 : (σ i == state) = same := h.1 0 (by omega)
    have hs : Stays σ state same (i + 1) n :=
      ⟨fun k hk => by rw [show i + 1 + k = i + (k + 1) by omega]; exact h.1 _ (by omega),
       by rw [show i + 1 + n = i + (n + 1) by omega]; exact h.2⟩
    cases left with
    | zero => rw [pulseLoop, if_pos h0, if_neg (by omega)]
    | succ left =>
      rw [pulseLoop, if_pos h0, ih left (count + 1) (i + 1) hs]
      by_cases q : n ≤ left
      · rw [if_pos q, if_pos (by omega), show count + 1 + n = count + (n + 1) by omega, show left + 1 - (n + 1) = left - n by omega,
          show i + 1 + n + 1 = i + (n + 1) + 1 by omega]
      · rw [if_neg q, if_neg (by omega)]

theorem pulseLoop_forever (σ : Nat → Bool) (state same : Bool) : ∀ left count i, (∀ k, (σ (i + k) == state) = same) →
    pulseLoop σ state same left count i = none := by
  intro left
  induction left with
  | zero => intro count i h; rw [pulseLoop, if_pos (show (σ i == state) = same from h 0)]
  | succ left ih =>
    intro count i h
    rw [pulseLoop, if_pos (show (σ i == state) = same from h 0)]
    exact ih _ _ (fun k => by rw [show i + 1 + k = i + (k + 1) by omega]; exact h _)

/-- The result of `pulseIn` when the previous pulse, the pause and the pulse measured take `a`, `b` and `c` readings: 0 if together they are more than
the limit, otherwise the length of the pulse at 21 clocks a reading plus 16. -/
theorem C75_pulse_in (σ : Nat → Bool) (perUs : U32) (state : Bool) (timeout : U32) (a b c : Nat)
    (ha : Stays σ state true 0 a) (hb : Stays σ state false (a + 1) b) (hc : Stays σ state true (a + b + 2) c) :
    pulseIn σ perUs state timeout =
      if a + b + c ≤ (timeout.toNat * perUs.toNat) % 2 ^ 32 then BitVec.ofNat 32 (((21 * c + 16) % 2 ^ 32) / perUs.toNat) else 0#32 := by
  unfold pulseIn
  dsimp only
  rw [show (timeout * perUs).toNat = (timeout.toNat * perUs.toNat) % 2 ^ 32 from BitVec.toNat_mul _ _]
  generalize (timeout.toNat * perUs.toNat) % 2 ^ 32 = m
  rw [pulseLoop_stays σ state true a m 0 0 ha]
  by_cases qa : a ≤ m
  · rw [if_pos qa]
    dsimp only
    rw [show 0 + a + 1 = a + 1 by omega, pulseLoop_stays σ state false b (m - a) 0 _ hb]
    by_cases qb : b ≤ m - a
    · rw [if_pos qb]
      dsimp only
      rw [show a + 1 + b + 1 = a + b + 2 by omega, pulseLoop_stays σ state true c (m - a - b) 0 _ hc]
      by_cases qc : c ≤ m - a - b
      · rw [if_pos qc, if_pos (by omega)]
        dsimp only
        apply BitVec.eq_of_toNat_eq
        rw [BitVec.toNat_udiv, BitVec.toNat_ofNat, BitVec.toNat_add, BitVec.toNat_mul, BitVec.toNat_ofNat]
        have h1 : ((0 + c) % 2 ^ 32 * (21#32).toNat % 2 ^ 32 + (16#32).toNat) % 2 ^ 32 = (21 * c + 16) % 2 ^ 32 := by
          show ((0 + c) % 2 ^ 32 * 21 % 2 ^ 32 + 16) % 2 ^ 32 = _
          omega
        rw [h1]
        have h2 : (21 * c + 16) % 2 ^ 32 / perUs.toNat < 2 ^ 32 :=
          Nat.lt_of_le_of_lt (Nat.div_le_self _ _) (Nat.mod_lt _ (by decide))
        rw [Nat.mod_eq_of_lt h2]
      · rw [if_neg qc, if_neg (by omega)]
    · rw [if_neg qb, if_neg (by omega)]
  · rw [if_neg qa, if_neg (by omega)]

/-- If the level never becomes `state`, or never leaves it, the result is 0. -/
theorem C75_pulse_none (σ : Nat → Bool) (perUs : U32) (state : Bool) (timeout : U32) (n : Nat)
    (h : (∀ k, σ k = state) ∨ Stays σ state true 0 n ∧ (∀ k, σ (n + 1 + k) ≠ state)) :
    pulseIn σ perUs state timeout = 0#32 := by
  unfold pulseIn
  dsimp only
  rcases h with h | ⟨h1, h2⟩
  · rw [pulseLoop_forever σ state true _ _ _ (fun k => by simp [h])]
  · rw [pulseLoop_stays σ state true n _ 0 0 h1]
    by_cases q : n ≤ (timeout * perUs).toNat
    · rw [if_pos q]
      dsimp only
      rw [show 0 + n + 1 = n + 1 by omega, pulseLoop_forever σ state false _ _ _ (fun k => by simp [h2])]
    · rw [if_neg q]

/-- The limit counts readings, not clocks: at 48 MHz a pulse of up to 21 times the time limit is measured (and one of `timeout` microseconds after a
pause of any length below 20 times the limit). -/
theorem C75_pulse_limit (σ : Nat → Bool) (state : Bool) (timeout : U32) (b c : Nat) (ht : timeout.toNat * 48 < 2 ^ 27)
    (ha : Stays σ state true 0 0) (hb : Stays σ state false 1 b) (hc : Stays σ state true (b + 2) c) (h : b + c = timeout.toNat * 48) :
    (pulseIn σ 48#32 state timeout).toNat = (21 * c + 16) / 48 := by
  have := C75_pulse_in σ 48#32 state timeout 0 b c ha hb (by rw [Nat.zero_add]; exact hc)
  rw [this, show (48#32).toNat = 48 from rfl, Nat.mod_eq_of_lt (show timeout.toNat * 48 < 2 ^ 32 by omega), if_pos (by omega), BitVec.toNat_ofNat,
    Nat.mod_eq_of_lt (show 21 * c + 16 < 2 ^ 32 by omega)]
  omega

/-! ## The hypotheses can be met -/

/-- A line on which the sensor answers with these pulses. -/
def wave (a b : Nat) (ps : List (Nat × Nat)) : Nat → Bool := fun i =>
  (List.replicate a false ++ true :: (List.replicate b true ++ false ::
    (ps.flatMap (fun p => List.replicate p.1 false ++ true :: (List.replicate p.2 true ++ [false]))))).getD i false

theorem run_replicate (pre rest : List Bool) (n : Nat) (lv : Bool) :
    Run (fun i => (pre ++ (List.replicate n lv ++ (!lv) :: rest)).getD i false) pre.length lv n := by
  constructor
  · intro k hk
    show (pre ++ _).getD (pre.length + k) false = lv
    rw [List.getD_eq_getElem?_getD, List.getElem?_append_right (by omega), show pre.length + k - pre.length = k by omega,
      List.getElem?_append_left (by rw [List.length_replicate]; exact hk), List.getElem?_replicate, if_pos hk]
    rfl
  · show (pre ++ _).getD (pre.length + n) false ≠ lv
    rw [List.getD_eq_getElem?_getD, List.getElem?_append_right (by omega), show pre.length + n - pre.length = n by omega,
      List.getElem?_append_right (by rw [List.length_replicate]; exact Nat.le_refl _), List.length_replicate, Nat.sub_self]
    cases lv <;> simp

theorem pulses_wave : ∀ (ps : List (Nat × Nat)) (pre : List Bool),
    Pulses (fun i => (pre ++ ps.flatMap (fun p => List.replicate p.1 false ++ true :: (List.replicate p.2 true ++ [false]))).getD i false)
      pre.length ps := by
  intro ps
  induction ps with
  | nil => intro pre; trivial
  | cons p t ih =>
    intro pre
    obtain ⟨l, h⟩ := p
    rw [List.flatMap_cons]
    dsimp only
    generalize ht : (t.flatMap fun p => List.replicate p.1 false ++ true :: (List.replicate p.2 true ++ [false])) = rest at ih
    have e1 : List.replicate l false ++ true :: (List.replicate h true ++ [false]) ++ rest =
        List.replicate l false ++ (!false) :: (List.replicate h true ++ (!true) :: rest) := by simp
    refine ⟨?_, ?_, ?_⟩
    · rw [e1]
      exact run_replicate pre _ l false
    · have := run_replicate (pre ++ List.replicate l false ++ [true]) rest h true
      rw [e1]
      have e2 : pre ++ (List.replicate l false ++ (!false) :: (List.replicate h true ++ (!true) :: rest)) =
          pre ++ List.replicate l false ++ [true] ++ (List.replicate h true ++ (!true) :: rest) := by simp
      have e3 : (pre ++ List.replicate l false ++ [true]).length = pre.length + l + 1 := by simp; omega
      rw [e2, ← e3]
      exact this
    · have := ih (pre ++ List.replicate l false ++ [true] ++ List.replicate h true ++ [false])
      have e2 : pre ++ (List.replicate l false ++ true :: (List.replicate h true ++ [false]) ++ rest) =
          pre ++ List.replicate l false ++ [true] ++ List.replicate h true ++ [false] ++ rest := by simp
      have e3 : (pre ++ List.replicate l false ++ [true] ++ List.replicate h true ++ [false]).length = pre.length + l + 1 + h + 1 := by simp; omega
      rw [e2, ← e3]
      exact this

theorem answer_wave (a b max : Nat) (ps : List (Nat × Nat)) (ha : 1 ≤ a ∧ a ≤ max) (hb : 1 ≤ b ∧ b ≤ max) (hl : ps.length = 40)
    (hm : ∀ p ∈ ps, p.1 ≤ max ∧ p.2 ≤ max) : Answer (wave a b ps) max ps := by
  refine ⟨⟨a, b, ha.1, ha.2, ?_, hb.1, hb.2, ?_, ?_⟩, hl, hm⟩
  · exact run_replicate [] _ a false
  · have := run_replicate (List.replicate a false ++ [true])
      (ps.flatMap (fun p => List.replicate p.1 false ++ true :: (List.replicate p.2 true ++ [false]))) b true
    have e3 : (List.replicate a false ++ [true]).length = a + 1 := by simp
    rw [e3] at this
    unfold wave
    simpa using this
  · have := pulses_wave ps (List.replicate a false ++ [true] ++ List.replicate b true ++ [false])
    have e3 : (List.replicate a false ++ [true] ++ List.replicate b true ++ [false]).length = a + b + 2 := by simp; omega
    rw [e3] at this
    unfold wave
    simpa using this

/-- The pulses of a message at a certain speed: low parts of `l`, high parts of `z` for a zero and `o` for a one. -/
def message (l z o : Nat) (bits : List Bool) : List (Nat × Nat) := bits.map fun b => (l, if b then o else z)

/-- 65.2 %, -10.1 degrees: 0x028c, 0x8065, checksum 0x73. -/
def frost : List Bool :=
  [false, false, false, false, false, false, true, false,  true, false, false, false, true, true, false, false,
   true, false, false, false, false, false, false, false,  false, true, true, false, false, true, false, true,
   false, true, true, true, false, false, true, true]

def demo (dht22 : Bool) : Dht := dhtInit dht22 48 (fun _ => 0xff#8) false

theorem answer_message (l z o : Nat) (bits : List Bool) (hb : bits.length = 40) (h : l ≤ 48000 ∧ z ≤ 48000 ∧ o ≤ 48000) (dht22 : Bool) :
    Answer (wave 80 80 (message l z o bits)) (demo dht22).maxcycles (message l z o bits) := by
  refine answer_wave 80 80 48000 _ (by decide) (by decide) (by rw [message, List.length_map, hb]) ?_
  intro p hp
  obtain ⟨b, _, rfl⟩ := List.mem_map.1 hp
  refine ⟨h.1, ?_⟩
  cases b
  · exact h.2.1
  · exact h.2.2

/-- At a low speed (50, 26 and 70 readings) the values are right. -/
example : let r := readData (demo true) 0#32 false (wave 80 80 (message 50 26 70 frost))
    r.1 = true ∧ (r.2.humidity, r.2.temperature) = (6520, -1010) := by
  have h := C75_dht_partial (demo true) 0#32 false _ _ (by decide) (answer_message 50 26 70 frost rfl (by decide) true) (by decide)
  have hk : ChecksumOk (trueBits (message 50 26 70 frost)) := by decide
  rw [if_pos hk] at h
  exact ⟨h.1.2 hk, h.2.trans (by decide)⟩

/-- With one bit changed the reading is refused and the values are kept. -/
example : let r := readData (demo true) 0#32 false (wave 80 80 (message 50 26 70 (true :: frost.tail)))
    r.1 = false ∧ r.2.humidity = 0 ∧ r.2.error = .checksum := by
  have h := C75_dht_read (demo true) 0#32 false _ _ (by decide) (answer_message 50 26 70 (true :: frost.tail) rfl (by decide) true) (by decide)
  have hk : ¬ChecksumOk (codeBits (message 50 26 70 (true :: frost.tail))) := by decide
  rw [if_neg hk, if_neg hk] at h
  exact ⟨Bool.eq_false_iff.2 fun q => hk (h.1.1 q), (Prod.mk.inj h.2.1).1, h.2.2.1⟩

/-- Four times as fast, the same message is taken for 0 % and 0 degrees. -/
example : let r := readData (demo true) 0#32 false (wave 80 80 (message 200 104 280 frost))
    r.1 = true ∧ r.2.humidity = 0 ∧ r.2.temperature = 0 :=
  C75_dht_truncated (demo true) 0#32 false _ _ (by decide) (answer_message 200 104 280 frost rfl (by decide) true) (by decide)

/-- No sensor: no value, and the interrupt of the pin, which was enabled, is left disabled. -/
example : let r := readData { demo true with pinInt := true } 0#32 false (fun _ => true)
    r.1 = false ∧ r.2.error = .dataTimeout ∧ r.2.pinInt = false := by decide

/-- The first reading 24.9 days after the start is refused. -/
example : ¬Due (demo true) (BitVec.ofNat 32 (2 ^ 31 - 2000)) false := by decide

example : pulseIn (fun i => decide (3 ≤ i ∧ i < 103)) 48#32 true 1000#32 = 43#32 := by decide +kernel

/-- A pulse of about 2 ms is returned although the limit is 100 µs. -/
example (σ : Nat → Bool) (h : ∀ i, σ i = decide (3 ≤ i ∧ i < 4802)) : (pulseIn σ 48#32 true 100#32).toNat = 2099 := by
  refine C75_pulse_limit σ true 100#32 2 4798 (by decide) ⟨fun k hk => absurd hk (by omega), by simp [h]⟩ ⟨?_, ?_⟩ ⟨?_, ?_⟩ (by decide)
  · intro k hk; rw [h]; simp; omega
  · rw [h]; simp
  · intro k hk; rw [h]; simp; omega
  · rw [h]; simp

end Verif.Pulse
