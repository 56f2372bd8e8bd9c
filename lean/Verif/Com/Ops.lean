import Verif.Com.Lemmas

/-!
# Auxiliary lemmas: effect of the operations of the model on flags and values
-/

namespace Verif.Com

/-! ## Half bytes -/

theorem nib_set : ∀ (b : BitVec 8) (f : BitVec 4),
    ((b &&& 0x0f#8) ||| (f.setWidth 8 <<< 4)) >>> 4 = f.setWidth 8 ∧
    ((b &&& 0x0f#8) ||| (f.setWidth 8 <<< 4)) &&& 0x0f#8 = b &&& 0x0f#8 ∧
    ((b &&& 0xf0#8) ||| f.setWidth 8) &&& 0x0f#8 = f.setWidth 8 ∧
    ((b &&& 0xf0#8) ||| f.setWidth 8) >>> 4 = b >>> 4 := by decide +kernel

theorem nib_add : ∀ (b : BitVec 8) (f : BitVec 4),
    (b ||| (f.setWidth 8 <<< 4)) >>> 4 = (b >>> 4) ||| f.setWidth 8 ∧
    (b ||| (f.setWidth 8 <<< 4)) &&& 0x0f#8 = b &&& 0x0f#8 ∧
    (b ||| f.setWidth 8) &&& 0x0f#8 = (b &&& 0x0f#8) ||| f.setWidth 8 ∧
    (b ||| f.setWidth 8) >>> 4 = b >>> 4 := by decide +kernel

theorem nib_sent : ∀ b : BitVec 8,
    (((b &&& ~~~(0x7#8 <<< 4)) ||| (0x1#8 <<< 4)) >>> 4 = ((b >>> 4) &&& 0x8#8) ||| 1#8) ∧
    ((b &&& ~~~(0x7#8 <<< 4)) ||| (0x1#8 <<< 4)) &&& 0x0f#8 = b &&& 0x0f#8 ∧
    ((b &&& ~~~(0x7#8 <<< 0)) ||| (0x1#8 <<< 0)) &&& 0x0f#8 = (b &&& 0x0f#8 &&& 0x8#8) ||| 1#8 ∧
    ((b &&& ~~~(0x7#8 <<< 0)) ||| (0x1#8 <<< 0)) >>> 4 = b >>> 4 := by decide +kernel

theorem nib_upd : ∀ b : BitVec 8,
    ((b &&& 0x80#8 ≠ 0#8) ↔ (b >>> 4) &&& 0x8#8 ≠ 0#8) ∧ ((b &&& 0x8#8 ≠ 0#8) ↔ (b &&& 0x0f#8) &&& 0x8#8 ≠ 0#8) ∧
    (b &&& ~~~(b &&& 0x80#8)) >>> 4 = (b >>> 4) &&& 0x7#8 ∧ (b &&& ~~~(b &&& 0x80#8)) &&& 0x0f#8 = b &&& 0x0f#8 ∧
    (b &&& ~~~(b &&& 0x8#8)) &&& 0x0f#8 = b &&& 0x0f#8 &&& 0x7#8 ∧ (b &&& ~~~(b &&& 0x8#8)) >>> 4 = b >>> 4 := by
  decide +kernel

theorem nib_of {f : Byte} (h : f.toNat < 16) : f = (f.setWidth 4).setWidth 8 := by
  apply BitVec.eq_of_toNat_eq; simp; omega

theorem flags_lt (m : Mem) (C : Config) (i : Nat) : (flags m C i).toNat < 16 := by
  have : ∀ b : BitVec 8, (b >>> 4).toNat < 16 ∧ (b &&& 0x0f#8).toNat < 16 := by decide +kernel
  unfold flags; split
  · exact (this _).1
  · exact (this _).2

theorem flags_congr {m m' : Mem} {C : Config} {i : Nat} (h : m' (C.flagsAt + i / 2) = m (C.flagsAt + i / 2)) :
    flags m' C i = flags m C i := by unfold flags; rw [h]

theorem poke_same (m : Mem) (a : Nat) (b : Byte) : poke m a b a = b := if_pos rfl
theorem poke_other {m : Mem} {a x : Nat} {b : Byte} (h : x ≠ a) : poke m a b x = m x := if_neg h

/-- Generic effect of replacing the byte of object `i`. -/
theorem flags_poke (m : Mem) (C : Config) (i : Nat) (b : Byte) (f : Byte)
    (hodd : i % 2 = 1 → b >>> 4 = f ∧ b &&& 0x0f#8 = m (C.flagsAt + i / 2) &&& 0x0f#8)
    (heven : i % 2 = 0 → b &&& 0x0f#8 = f ∧ b >>> 4 = m (C.flagsAt + i / 2) >>> 4) (j : Nat) :
    flags (poke m (C.flagsAt + i / 2) b) C j = if j = i then f else flags m C j := by
  by_cases hj : j = i
  · subst hj
    rw [if_pos rfl]
    unfold flags
    rw [poke_same]
    by_cases ho : j % 2 = 1
    · rw [if_pos ho]; exact (hodd ho).1
    · rw [if_neg ho]; exact (heven (by omega)).1
  · rw [if_neg hj]
    by_cases hd : j / 2 = i / 2
    · unfold flags
      rw [hd, poke_same]
      by_cases ho : i % 2 = 1
      · have : ¬ j % 2 = 1 := by omega
        rw [if_neg this, if_neg this]; exact (hodd ho).2
      · have : j % 2 = 1 := by omega
        rw [if_pos this, if_pos this]; exact (heven (by omega)).2
    · exact flags_congr (poke_other (by omega))

section
variable {B : Bcu} {m : Mem} {C : Config} (H : Configured B m C)
include H

theorem setFlags_flags (i : Nat) (f : Byte) (hf : f.toNat < 16) (j : Nat) :
    flags (setObjectFlags B m i f) C j = if j = i then f else flags m C j := by
  unfold setObjectFlags
  rw [flagsTable_eq H]
  have e := nib_of hf
  have n := nib_set (m (C.flagsAt + i / 2)) (f.setWidth 4)
  rw [← e] at n
  simp only
  split
  · rename_i ho
    exact flags_poke m C i _ f (fun _ => ⟨n.1, n.2.1⟩) (fun h => by omega) j
  · rename_i ho
    exact flags_poke m C i _ f (fun h => absurd h ho) (fun _ => ⟨n.2.2.1, n.2.2.2⟩) j

theorem setFlags_mem (i : Nat) (f : Byte) (a : Nat) (ha : a ≠ C.flagsAt + i / 2) : setObjectFlags B m i f a = m a := by
  unfold setObjectFlags
  rw [flagsTable_eq H]
  simp only
  split <;> exact poke_other ha

theorem addFlags_flags (i : Nat) (f : Byte) (hf : f.toNat < 16) (j : Nat) :
    flags (addObjectFlags B m i f) C j = if j = i then flags m C i ||| f else flags m C j := by
  unfold addObjectFlags
  rw [flagsTable_eq H]
  have e := nib_of hf
  have n := nib_add (m (C.flagsAt + i / 2)) (f.setWidth 4)
  rw [← e] at n
  simp only
  by_cases ho : i % 2 = 1
  · rw [if_pos ho]
    refine flags_poke m C i _ _ (fun _ => ⟨?_, n.2.1⟩) (fun h => by omega) j
    rw [n.1]; unfold flags; rw [if_pos ho]
  · rw [if_neg ho]
    refine flags_poke m C i _ _ (fun h => absurd h ho) (fun _ => ⟨?_, n.2.2.2⟩) j
    rw [n.2.2.1]; unfold flags; rw [if_neg ho]

theorem addFlags_mem (i : Nat) (f : Byte) (a : Nat) (ha : a ≠ C.flagsAt + i / 2) : addObjectFlags B m i f a = m a := by
  unfold addObjectFlags
  rw [flagsTable_eq H]
  exact poke_other ha

omit H in
theorem flagByte_inFlags {C : Config} {i : Nat} (hi : i < C.objs.length) : inFlags C (C.flagsAt + i / 2) := by
  unfold inFlags; omega

theorem addFlags_configured (i : Nat) (hi : i < C.objs.length) (f : Byte) : Configured B (addObjectFlags B m i f) C :=
  H.frame fun a ha => addFlags_mem H i f a (fun e => ha (Or.inl (e ▸ flagByte_inFlags hi)))

theorem setFlags_configured (i : Nat) (hi : i < C.objs.length) (f : Byte) : Configured B (setObjectFlags B m i f) C :=
  H.frame fun a ha => setFlags_mem H i f a (fun e => ha (Or.inl (e ▸ flagByte_inFlags hi)))

/-- Flags are not touched by a change of values. -/
theorem flags_of_values {m' : Mem} (h : ∀ a, (∀ o ∈ C.objs, ¬ inValue B o a) → m' a = m a) (i : Nat) (hi : i < C.objs.length) :
    flags m' C i = flags m C i :=
  flags_congr (h _ (fun o ho => H.valid.flagsSeparate _ (flagByte_inFlags hi) o ho))

/-- Values are not touched by a change of flags. -/
theorem value_of_flags {m' : Mem} (h : ∀ a, ¬ inFlags C a → m' a = m a) (o : Obj) (ho : o ∈ C.objs) :
    value B m' o = value B m o := by
  unfold value
  apply List.map_congr_left
  intro k hk
  rw [List.mem_range] at hk
  exact h _ (fun hf => H.valid.flagsSeparate _ hf o ho ⟨by omega, by omega⟩)

end

/-! ## Values -/

theorem value_congr {B : Bcu} {m m' : Mem} {o : Obj} (h : ∀ a, inValue B o a → m' a = m a) : value B m' o = value B m o := by
  unfold value
  apply List.map_congr_left
  intro k hk
  rw [List.mem_range] at hk
  exact h _ ⟨by omega, by omega⟩

theorem number_lt : ∀ bs : List Byte, number bs < 256 ^ bs.length
  | [] => by simp [number]
  | b :: bs => by
    have := number_lt bs
    have hb := b.isLt
    simp only [number, List.length_cons, Nat.pow_succ]
    omega

theorem number_append : ∀ (as bs : List Byte), number (as ++ bs) = number as + 256 ^ as.length * number bs
  | [], bs => by simp [number]
  | a :: as, bs => by
    simp only [List.cons_append, number, number_append as bs, List.length_cons, Nat.pow_succ]
    rw [Nat.mul_add, Nat.mul_comm (256 ^ as.length) 256, Nat.mul_assoc]; omega

/-- Bytes `a, …, a + n - 1`. -/
def block (m : Mem) (a n : Nat) : List Byte := (List.range n).map (fun k => m (a + k))

theorem block_succ_last (m : Mem) (a n : Nat) : block m a (n + 1) = block m a n ++ [m (a + n)] := by
  unfold block; rw [List.range_succ]; simp

theorem block_succ (m : Mem) (a n : Nat) : block m a (n + 1) = m a :: block m (a + 1) n := by
  unfold block; rw [List.range_succ_eq_map]; simp [Nat.add_assoc, Nat.add_comm 1]

theorem block_length (m : Mem) (a n : Nat) : (block m a n).length = n := by simp [block]

theorem value_block (B : Bcu) (m : Mem) (o : Obj) : value B m o = block m (valueAt B o) (bytesOf o.type) := rfl

theorem readLoop_spec (m : Mem) : ∀ (n a : Nat) (v : U32),
    readLoop m n (a + n) v = BitVec.ofNat 32 (number (block m a n) + 256 ^ n * v.toNat)
  | 0, a, v => by simp [readLoop, block, number]
  | n + 1, a, v => by
    unfold readLoop
    rw [show a + (n + 1) - 1 = a + n by omega, readLoop_spec m n a]
    rw [block_succ_last, number_append, block_length]
    apply BitVec.eq_of_toNat_eq
    simp only [BitVec.toNat_ofNat, BitVec.toNat_or, BitVec.toNat_shiftLeft, BitVec.toNat_setWidth]
    have hb := (m (a + n)).isLt
    rw [Nat.mod_eq_of_lt (by omega : (m (a + n)).toNat < 2 ^ 32)]
    have e : (v.toNat <<< 8 % 2 ^ 32 ||| (m (a + n)).toNat) = (v.toNat * 256 + (m (a + n)).toNat) % 2 ^ 32 := by
      have e1 : v.toNat <<< 8 % 2 ^ 32 = 2 ^ 8 * (v.toNat % 2 ^ 24) := by rw [Nat.shiftLeft_eq]; omega
      rw [e1, ← Nat.two_pow_add_eq_or_of_lt (by omega)]; omega
    rw [e]
    rw [show number [m (a + n)] = (m (a + n)).toNat by simp [number]]
    rw [Nat.add_mod, Nat.mul_mod, Nat.mod_mod, ← Nat.mul_mod, ← Nat.add_mod]
    congr 1
    rw [show 256 ^ (n + 1) = 256 ^ n * 256 from Nat.pow_succ _ _, Nat.mul_add, Nat.mul_assoc (256 ^ n) 256, Nat.mul_comm v.toNat 256]; omega

theorem objectRead_spec {B : Bcu} {m : Mem} {C : Config} (H : Configured B m C) (i : Nat) (hi : i < C.objs.length) :
    objectRead B m i = BitVec.ofNat 32 (number (value B m C.objs[i])) := by
  unfold objectRead
  rw [valuePtr_eq H i hi, objectSize_eq H i hi, value_block]
  simp only [Option.getD_some, Int.toNat_natCast]
  have hp := bytesOf_pos C.objs[i].type
  obtain ⟨n, hn⟩ : ∃ n, bytesOf C.objs[i].type = n + 1 := ⟨_, (Nat.sub_add_cancel hp).symm⟩
  rw [hn, show valueAt B C.objs[i] + (n + 1) - 1 = valueAt B C.objs[i] + n by omega, Nat.add_sub_cancel, readLoop_spec,
    block_succ_last, number_append, block_length]
  apply BitVec.eq_of_toNat_eq
  have hb := (m (valueAt B C.objs[i] + n)).isLt
  simp only [BitVec.toNat_ofNat, BitVec.toNat_setWidth]
  rw [Nat.mod_eq_of_lt (by omega : (m (valueAt B C.objs[i] + n)).toNat < 2 ^ 32)]
  simp [number]

theorem writeLoop_other : ∀ (n : Nat) (m : Mem) (p : Nat) (v : U32) (a : Nat), ¬ (p ≤ a ∧ a < p + n) → writeLoop n m p v a = m a
  | 0, _, _, _, _, _ => rfl
  | n + 1, m, p, v, a, h => by
    unfold writeLoop
    rw [writeLoop_other n _ _ _ a (by omega)]
    exact poke_other (by omega)

theorem writeLoop_number : ∀ (n : Nat) (m : Mem) (p : Nat) (v : U32), number (block (writeLoop n m p v) p n) = v.toNat % 256 ^ n
  | 0, m, p, v => by simp [block, number, Nat.mod_one]
  | n + 1, m, p, v => by
    unfold writeLoop
    rw [block_succ, number, writeLoop_number n, writeLoop_other _ _ _ _ _ (by omega), poke_same]
    simp only [BitVec.toNat_setWidth, BitVec.toNat_ushiftRight, Nat.shiftRight_eq_div_pow]
    rw [show 256 ^ (n + 1) = 256 * 256 ^ n by rw [Nat.pow_succ, Nat.mul_comm], Nat.mod_mul]

theorem objectWriteFlags_eq {B : Bcu} {m : Mem} {C : Config} (H : Configured B m C) (i : Nat) (hi : i < C.objs.length) (v : U32) (f : Byte) :
    objectWriteFlags B m i v f = setObjectFlags B (writeLoop (bytesOf C.objs[i].type) m (valueAt B C.objs[i]) v) i f := by
  unfold objectWriteFlags
  rw [valuePtr_eq H i hi, objectSize_eq H i hi]
  simp only
  rw [if_neg (by omega), Int.toNat_natCast]

theorem writeLoop_configured {B : Bcu} {m : Mem} {C : Config} (H : Configured B m C) (i : Nat) (hi : i < C.objs.length) (v : U32) :
    Configured B (writeLoop (bytesOf C.objs[i].type) m (valueAt B C.objs[i]) v) C :=
  H.frame fun _ ha => writeLoop_other _ _ _ _ _ (fun h => ha (Or.inr ⟨_, List.getElem_mem hi, h⟩))

end Verif.Com
