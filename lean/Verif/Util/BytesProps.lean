import Verif.Util.Bytes

/-!
# C36 (reverseCopy, word helpers), C37 (hashUID), C49 (shiftOut / shiftIn)
-/

namespace Verif.Bytes

/-! ## C36 -/

theorem reverseCopyLoop_spec (n : Nat) : ∀ (m : Nat → Byte) (dest src : Nat), n ≤ src →
    (dest + n ≤ src - n ∨ src ≤ dest) →
    (∀ i, i < n → reverseCopyLoop n m dest src (dest + i) = m (src - 1 - i)) ∧
    (∀ a, (a < dest ∨ dest + n ≤ a) → reverseCopyLoop n m dest src a = m a) := by
  induction n with
  | zero => intro m dest src _ _; exact ⟨fun i hi => absurd hi (by omega), fun a _ => rfl⟩
  | succ n ih =>
    intro m dest src hsrc hdis
    obtain ⟨h1, h2⟩ := ih (poke m dest (m (src - 1))) (dest + 1) (src - 1) (by omega) (by omega)
    constructor
    · intro i hi
      show reverseCopyLoop n _ _ _ _ = _
      cases i with
      | zero =>
        rw [h2 _ (by omega)]
        simp [poke]
      | succ j =>
        have := h1 j (by omega)
        rw [show dest + 1 + j = dest + (j + 1) by omega] at this
        rw [this]
        unfold poke
        rw [if_neg (by omega)]
        congr 1
        omega
    · intro a ha
      show reverseCopyLoop n _ _ _ _ = _
      rw [h2 a (by omega)]
      unfold poke
      rw [if_neg (by omega)]

/-- **C36.** For non-overlapping blocks, `reverseCopy(dest, src, len)` leaves in `dest` the bytes of `src` in
reverse order and touches nothing else. -/
theorem C36_reverseCopy (m : Nat → Byte) (dest src : Nat) (len : Nat)
    (hdis : dest + len ≤ src ∨ src + len ≤ dest) :
    (∀ i, i < len → reverseCopy m dest src len (dest + i) = m (src + (len - 1 - i))) ∧
    (∀ a, (a < dest ∨ dest + len ≤ a) → reverseCopy m dest src len a = m a) := by
  unfold reverseCopy
  rw [Int.toNat_natCast]
  obtain ⟨h1, h2⟩ := reverseCopyLoop_spec len m dest (src + len) (by omega) (by omega)
  refine ⟨fun i hi => ?_, h2⟩
  rw [h1 i hi]
  congr 1
  omega

/-- **C36.** Two reverse copies restore the block. -/
theorem C36_reverseCopy_twice (m : Nat → Byte) (dest src back : Nat) (len : Nat)
    (hdis : dest + len ≤ src ∨ src + len ≤ dest) (hdis' : back + len ≤ dest ∨ dest + len ≤ back) :
    ∀ i, i < len → reverseCopy (reverseCopy m dest src len) back dest len (back + i) = m (src + i) := by
  intro i hi
  rw [(C36_reverseCopy _ back dest len hdis').1 i hi, (C36_reverseCopy m dest src len hdis).1 _ (by omega)]
  congr 1
  omega

/-- **C36.** Non-positive lengths copy nothing. -/
theorem C36_reverseCopy_nothing (m : Nat → Byte) (dest src : Nat) (len : Int) (h : len ≤ 0) :
    reverseCopy m dest src len = m := by
  unfold reverseCopy
  rw [Int.toNat_of_nonpos h]
  rfl

example : (List.range 4).map (reverseCopy (fun i => BitVec.ofNat 8 i) 10 20 4 <| 10 + ·)
    = [23#8, 22#8, 21#8, 20#8] := by decide

theorem makeWord_toNat (h l : Byte) : (makeWord h l).toNat = 256 * h.toNat + l.toNat := by
  unfold makeWord
  have a := h.isLt
  have b := l.isLt
  rw [BitVec.toNat_setWidth, BitVec.toNat_or, BitVec.toNat_shiftLeft, BitVec.toNat_setWidth,
    BitVec.toNat_setWidth, Nat.shiftLeft_eq]
  have e1 : h.toNat % 2 ^ 32 * 2 ^ 8 % 2 ^ 32 = 2 ^ 8 * h.toNat := by omega
  have e2 : l.toNat % 2 ^ 32 = l.toNat := by omega
  rw [e1, e2, ← Nat.two_pow_add_eq_or_of_lt (by omega)]
  omega

/-- **C36.** `makeWord`, `highByte` and `lowByte` are inverse to each other. -/
theorem C36_word_helpers (h l : Byte) (w : Word) :
    highByte (makeWord h l) = h.setWidth 16 ∧ lowByte (makeWord h l) = l.setWidth 16 ∧
    makeWord ((highByte w).setWidth 8) ((lowByte w).setWidth 8) = w ∧
    (makeWord h l).toNat = 256 * h.toNat + l.toNat := by
  have a := h.isLt
  have b := l.isLt
  have c := w.isLt
  have hh : ∀ v : Word, (highByte v).toNat = v.toNat / 256 % 256 := by
    intro v
    unfold highByte
    rw [BitVec.toNat_and, BitVec.toNat_ushiftRight, Nat.shiftRight_eq_div_pow]
    exact Nat.and_two_pow_sub_one_eq_mod _ 8
  have hl : ∀ v : Word, (lowByte v).toNat = v.toNat % 256 := by
    intro v
    unfold lowByte
    rw [BitVec.toNat_and]
    exact Nat.and_two_pow_sub_one_eq_mod _ 8
  refine ⟨?_, ?_, ?_, makeWord_toNat h l⟩
  · apply BitVec.eq_of_toNat_eq
    rw [hh, makeWord_toNat, BitVec.toNat_setWidth]
    omega
  · apply BitVec.eq_of_toNat_eq
    rw [hl, makeWord_toNat, BitVec.toNat_setWidth]
    omega
  · apply BitVec.eq_of_toNat_eq
    rw [makeWord_toNat, BitVec.toNat_setWidth, BitVec.toNat_setWidth, hh, hl]
    omega

example : makeWord 0x12#8 0x34#8 = 0x1234#16 := by decide

/-! ## C37 -/

/-- Little-endian value of a byte string. -/
def leValue : List Byte → Nat
  | [] => 0
  | b :: bs => b.toNat + 256 * leValue bs

theorem load64_eq (x : BitVec 64) (bs : List Byte) :
    load64 x bs = leValue bs + 256 ^ bs.length * (x.toNat / 256 ^ bs.length) := by
  unfold load64
  suffices h : ∀ y, bs.foldr (fun (b : Byte) acc => b.toNat + 256 * acc) y = leValue bs + 256 ^ bs.length * y from h _
  intro y
  induction bs with
  | nil => simp [leValue]
  | cons b bs ih =>
    rw [List.foldr_cons, ih, leValue, List.length_cons, Nat.pow_succ, Nat.mul_add, Nat.mul_comm _ 256,
      Nat.mul_assoc]
    omega

theorem leValue_lt (bs : List Byte) : leValue bs < 256 ^ bs.length := by
  induction bs with
  | nil => simp [leValue]
  | cons b bs ih =>
    rw [leValue, List.length_cons, Nat.pow_succ]
    have := b.isLt
    omega

theorem load64_full (x : BitVec 64) (bs : List Byte) (h : bs.length = 8) : load64 x bs = leValue bs := by
  rw [load64_eq, h]
  have := x.isLt
  have : x.toNat / 256 ^ 8 = 0 := Nat.div_eq_of_lt this
  omega

theorem leValue_hashBytes (a n : Nat) : leValue (hashBytes a n) = a % 256 ^ n := by
  induction n generalizing a with
  | zero => rw [Nat.pow_zero, Nat.mod_one]; rfl
  | succ n ih =>
    have : hashBytes a (n + 1) = BitVec.ofNat 8 a :: hashBytes (a / 256) n := by
      unfold hashBytes
      rw [List.range_succ_eq_map, List.map_cons, List.map_map]
      simp only [Nat.pow_zero, Nat.div_one]
      congr 1
      apply List.map_congr_left
      intro i _
      simp only [Function.comp]
      rw [Nat.pow_succ, Nat.mul_comm, Nat.div_div_eq_div_mul]
    rw [this, leValue, ih, BitVec.toNat_ofNat, Nat.pow_succ 256, Nat.mul_comm (256 ^ n), Nat.mod_mul]

/-- **C37.** For a 16-byte unique id and a hash of `n` bytes (1 to 16) the hash is a function of the id alone
(whatever the stack contained): the `n` low bytes of the two 64-bit halves reduced modulo the prime and
combined by exclusive or. -/
theorem C37_hash_is_function_of_uid (a0 b0 : BitVec 64) (uid : List Byte) (hu : uid.length = 16) (n : Nat)
    (h1 : 1 ≤ n) (h2 : n ≤ 16) :
    ∃ h, hashUID a0 b0 uid n = some h ∧ h.length = n ∧
      leValue h = ((leValue (uid.take 8) % 281474976710597) ^^^ (leValue (uid.drop 8) % 281474976710597)) % 256 ^ n := by
  unfold hashUID
  rw [hu, if_neg (by omega), if_neg (by omega)]
  dsimp only
  refine ⟨_, rfl, by simp [hashBytes], ?_⟩
  rw [leValue_hashBytes, Int.toNat_natCast, load64_full _ _ (by simp [hu]), load64_full _ _ (by simp [hu])]
  rfl

theorem xor_cancel {a b c : Nat} (h : a ^^^ b = a ^^^ c) : b = c := by
  have := congrArg (a ^^^ ·) h
  simpa only [← Nat.xor_assoc, Nat.xor_self, Nat.zero_xor] using this

/-- The value before truncation fits into 48 bits. -/
theorem mix_lt (a b : Nat) : (a % 281474976710597) ^^^ (b % 281474976710597) < 2 ^ 48 :=
  Nat.xor_lt_two_pow (Nat.lt_of_lt_of_le (Nat.mod_lt _ (by omega)) (by omega))
    (Nat.lt_of_lt_of_le (Nat.mod_lt _ (by omega)) (by omega))

/-- **C37.** The 6-byte serial number loses nothing of the computed value. -/
theorem C37_six_bytes_suffice (a0 b0 : BitVec 64) (uid : List Byte) (hu : uid.length = 16) :
    ∃ h, hashUID a0 b0 uid 6 = some h ∧ h.length = 6 ∧
      leValue h = (leValue (uid.take 8) % 281474976710597) ^^^ (leValue (uid.drop 8) % 281474976710597) := by
  obtain ⟨h, e1, e2, e3⟩ := C37_hash_is_function_of_uid a0 b0 uid hu 6 (by omega) (by omega)
  refine ⟨h, e1, e2, ?_⟩
  rw [e3]
  exact Nat.mod_eq_of_lt (mix_lt _ _)

/-- **C37.** Two ids that agree in one half get the same 6-byte serial number only if their other halves are
equal modulo the prime; in particular ids with the same first half and second halves below the prime
get different serial numbers. -/
theorem C37_halves_distinguished (a0 b0 a1 b1 : BitVec 64) (u v : List Byte) (hu : u.length = 16) (hv : v.length = 16)
    (heq : hashUID a0 b0 u 6 = hashUID a1 b1 v 6) :
    (leValue (u.take 8) = leValue (v.take 8) →
      leValue (u.drop 8) % 281474976710597 = leValue (v.drop 8) % 281474976710597) ∧
    (leValue (u.drop 8) = leValue (v.drop 8) →
      leValue (u.take 8) % 281474976710597 = leValue (v.take 8) % 281474976710597) := by
  obtain ⟨h, e1, -, e3⟩ := C37_six_bytes_suffice a0 b0 u hu
  obtain ⟨h', f1, -, f3⟩ := C37_six_bytes_suffice a1 b1 v hv
  rw [e1, f1, Option.some.injEq] at heq
  rw [heq, f3] at e3
  constructor
  · intro hh
    rw [hh] at e3
    exact (xor_cancel e3).symm
  · intro hh
    rw [hh] at e3
    rw [Nat.xor_comm, Nat.xor_comm (leValue (List.take 8 u) % _)] at e3
    exact (xor_cancel e3).symm

/-- **C37.** Invalid lengths are refused: an id of 0 or more than 16 bytes, a hash length that is not positive
or longer than the id. -/
theorem C37_bad_lengths_refused (a0 b0 : BitVec 64) (uid : List Byte) (n : Int) :
    hashUID a0 b0 uid n = none ↔ uid.length = 0 ∨ 16 < uid.length ∨ n ≤ 0 ∨ (uid.length : Int) < n := by
  unfold hashUID
  split
  · simp; omega
  · split
    · simp; omega
    · simp only [reduceCtorEq, false_iff]; omega

/-- Non-vacuity. -/
example : hashUID 77#64 88#64 ((List.range 16).map (BitVec.ofNat 8 ·)) 6
    = hashUID 0#64 0#64 ((List.range 16).map (BitVec.ofNat 8 ·)) 6 ∧
    (hashUID 0#64 0#64 ((List.range 16).map (BitVec.ofNat 8 ·)) 6).isSome := by decide +kernel

/-- **C37, finding.** For ids shorter than 16 bytes the hash also depends on uninitialised stack memory. -/
theorem C37_short_id_not_deterministic :
    hashUID 0#64 0#64 (List.replicate 8 1#8) 6 ≠ hashUID 0xFF00000000#64 0#64 (List.replicate 8 1#8) 6 := by
  decide +kernel

/-! ## C49 -/

/-- A receiver that samples the data line at every rising edge of the clock, starting with the clock low. -/
def sampled : Bool → Bool → List PinEvent → List Bool
  | _, _, [] => []
  | _, clk, .data l :: es => sampled l clk es
  | d, clk, .clock l :: es => if l && !clk then d :: sampled d l es else sampled d l es

/-- The level of the clock after the events, and whether the data line changed only while the clock was low. -/
def clockAfter : Bool → Bool → List PinEvent → Bool × Bool
  | clk, ok, [] => (clk, ok)
  | clk, ok, .data _ :: es => clockAfter clk (ok && !clk) es
  | _, ok, .clock l :: es => clockAfter l ok es

/-- **C49.** What a receiver clocked by `shiftOut` samples: exactly eight bits, the lowest one first for
`LSBFIRST`, the highest one first for `MSBFIRST`; the data line changes only while the clock is low, and the clock is
left low. -/
theorem C49_shiftOut_bits (v : Byte) (d : Bool) :
    sampled d false (shiftOut .lsbFirst v) = (List.range 8).map (fun i => v.getLsbD i) ∧
    sampled d false (shiftOut .msbFirst v) = (List.range 8).map (fun i => v.getLsbD (7 - i)) ∧
    clockAfter false true (shiftOut .lsbFirst v) = (false, true) ∧
    clockAfter false true (shiftOut .msbFirst v) = (false, true) := by
  revert d; revert v
  decide +kernel

/-- **C49.** A byte sent bit by bit is read back unchanged with the same bit order, for both orders. -/
theorem C49_round_trip (order : BitOrder) (v : Byte) (d : Bool) :
    shiftIn order (fun k => (sampled d false (shiftOut order v)).getD k false) = v := by
  revert d; revert v
  cases order <;> decide +kernel

/-- **C49.** Reading puts the level seen after the k-th clock edge into bit k (`LSBFIRST`) or bit 7-k. -/
theorem C49_shiftIn_bits (levels : Nat → Bool) (i : Nat) (hi : i < 8) :
    (shiftIn .lsbFirst levels).getLsbD i = levels i ∧ (shiftIn .msbFirst levels).getLsbD i = levels (7 - i) := by
  have key : ∀ a b c d e f g h : Bool, ∀ i : Fin 8,
      let l : Nat → Bool := fun k => [a, b, c, d, e, f, g, h].getD k false
      (shiftIn .lsbFirst l).getLsbD i = l i ∧ (shiftIn .msbFirst l).getLsbD i = l (7 - i) := by
    decide +kernel
  have := key (levels 0) (levels 1) (levels 2) (levels 3) (levels 4) (levels 5) (levels 6) (levels 7) ⟨i, hi⟩
  dsimp only at this
  have hc : ∀ o, shiftIn o levels = shiftIn o (fun k => [levels 0, levels 1, levels 2, levels 3, levels 4, levels 5,
      levels 6, levels 7].getD k false) := by
    intro o; rfl
  rw [hc .lsbFirst, hc .msbFirst]
  have hl : ∀ k, k < 8 → [levels 0, levels 1, levels 2, levels 3, levels 4, levels 5,
      levels 6, levels 7].getD k false = levels k := by
    intro k hk
    match k, hk with
    | 0, _ | 1, _ | 2, _ | 3, _ | 4, _ | 5, _ | 6, _ | 7, _ => rfl
  rw [hl i hi, hl (7 - i) (by omega)] at this
  exact this

example : (sampled false false (shiftOut .msbFirst 0xA1#8)) = [true, false, true, false, false, false, false, true] := by
  decide

end Verif.Bytes
