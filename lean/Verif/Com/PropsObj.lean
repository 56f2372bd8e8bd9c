import Verif.Com.Ops
import Verif.Com.Demo

/-!
# Properties of the communication objects: flags, values, update queue

C15, C16, C17.
-/

namespace Verif.Com

/-! ## C15: flags -/

/-- **C15.** `setObjectFlags(i, f)`: the flags of `i` read back as `f`, the flags of every other object, all values and
every other byte of the memory are unchanged. -/
theorem C15_set_flags {B : Bcu} {m : Mem} {C : Config} (H : Configured B m C) (i : Nat) (hi : i < C.objs.length)
    (f : Byte) (hf : f.toNat < 16) :
    flags (setObjectFlags B m i f) C i = f ∧
    (∀ j, j ≠ i → flags (setObjectFlags B m i f) C j = flags m C j) ∧
    (∀ o ∈ C.objs, value B (setObjectFlags B m i f) o = value B m o) ∧
    (∀ a, a ≠ C.flagsAt + i / 2 → setObjectFlags B m i f a = m a) := by
  refine ⟨?_, ?_, ?_, ?_⟩
  · rw [setFlags_flags H i f hf, if_pos rfl]
  · intro j hj; rw [setFlags_flags H i f hf, if_neg hj]
  · intro o ho
    exact value_of_flags H (fun a ha => setFlags_mem H i f a (fun e => ha (e ▸ flagByte_inFlags hi))) o ho
  · exact fun a ha => setFlags_mem H i f a ha

/-- **C15.** `addObjectFlags(i, f)`: `f` is added to the flags of `i`, everything else is unchanged. -/
theorem C15_add_flags {B : Bcu} {m : Mem} {C : Config} (H : Configured B m C) (i : Nat) (hi : i < C.objs.length)
    (f : Byte) (hf : f.toNat < 16) :
    flags (addObjectFlags B m i f) C i = flags m C i ||| f ∧
    (∀ j, j ≠ i → flags (addObjectFlags B m i f) C j = flags m C j) ∧
    (∀ o ∈ C.objs, value B (addObjectFlags B m i f) o = value B m o) ∧
    (∀ a, a ≠ C.flagsAt + i / 2 → addObjectFlags B m i f a = m a) := by
  refine ⟨?_, ?_, ?_, ?_⟩
  · rw [addFlags_flags H i f hf, if_pos rfl]
  · intro j hj; rw [addFlags_flags H i f hf, if_neg hj]
  · intro o ho
    exact value_of_flags H (fun a ha => addFlags_mem H i f a (fun e => ha (e ▸ flagByte_inFlags hi))) o ho
  · exact fun a ha => addFlags_mem H i f a ha

/-- **C15.** The requests of the application: `requestObjectRead(i)` sets the flags of `i` to 7 (transmission request
and data request), `objectWritten(i)` adds the transmission request 3; no other object is affected. -/
theorem C15_requests {B : Bcu} {m : Mem} {C : Config} (H : Configured B m C) (i : Nat) (hi : i < C.objs.length) :
    flags (requestObjectRead B m i) C i = 7#8 ∧
    flags (objectWritten B m i) C i = flags m C i ||| 3#8 ∧
    (∀ j, j ≠ i → flags (requestObjectRead B m i) C j = flags m C j ∧ flags (objectWritten B m i) C j = flags m C j) ∧
    (∀ o ∈ C.objs, value B (requestObjectRead B m i) o = value B m o ∧ value B (objectWritten B m i) o = value B m o) := by
  have h1 := C15_set_flags H i hi 7#8 (by decide)
  have h2 := C15_add_flags H i hi 3#8 (by decide)
  exact ⟨h1.1, h2.1, fun j hj => ⟨h1.2.1 j hj, h2.2.1 j hj⟩, fun o ho => ⟨h1.2.2.1 o ho, h2.2.2.1 o ho⟩⟩

-- object 1 and object 0 share a byte
example : flags (requestObjectRead BCU1 demoM 1) demoC 1 = 7#8 ∧ flags (requestObjectRead BCU1 demoM 1) demoC 0 = 0#8 ∧
    requestObjectRead BCU1 demoM 1 0x40 = 0x70#8 := by decide +kernel
example := C15_set_flags demo_configured 1 (by decide) 0xC#8 (by decide)
example := C15_add_flags demo_configured 2 (by decide) 0xC#8 (by decide)
example := C15_requests demo_configured 3 (by decide)

/-- **C15, negative.** Why `f < 16` is needed: the code does not mask the flags, so a wider value given to an even object
changes the flags of its neighbour. (All callers in the library pass 4-bit constants.) -/
theorem C15_wide_flags_leak : ∃ (B : Bcu) (m : Mem) (C : Config), Configured B m C ∧ ∃ i < C.objs.length, ∃ f : Byte,
    ∃ j < C.objs.length, j ≠ i ∧ flags (setObjectFlags B m i f) C j ≠ flags m C j :=
  ⟨BCU1, demoM, demoC, demo_configured, 0, by decide, 0x10#8, 1, by decide, by decide, by decide +kernel⟩

/-! ## C16: values -/

/-- The storage of two objects does not overlap. -/
def Apart (B : Bcu) (o p : Obj) : Prop := ∀ a, ¬ (inValue B o a ∧ inValue B p a)

theorem writeFlags_spec {B : Bcu} {m : Mem} {C : Config} (H : Configured B m C) (i : Nat) (hi : i < C.objs.length)
    (v : U32) (f : Byte) (hf : f.toNat < 16) :
    (objectRead B (objectWriteFlags B m i v f) i).toNat = v.toNat % 256 ^ bytesOf C.objs[i].type ∧
    number (value B (objectWriteFlags B m i v f) C.objs[i]) = v.toNat % 256 ^ bytesOf C.objs[i].type ∧
    (∀ p ∈ C.objs, Apart B C.objs[i] p → value B (objectWriteFlags B m i v f) p = value B m p) ∧
    flags (objectWriteFlags B m i v f) C i = f ∧
    (∀ j, j < C.objs.length → j ≠ i → flags (objectWriteFlags B m i v f) C j = flags m C j) ∧
    (∀ a, ¬ inValue B C.objs[i] a → a ≠ C.flagsAt + i / 2 → objectWriteFlags B m i v f a = m a) := by
  have H1 := writeLoop_configured H i hi v
  have S := C15_set_flags H1 i hi f hf
  have H2 := setFlags_configured H1 i hi f
  rw [objectWriteFlags_eq H i hi]
  have hnum : number (value B (setObjectFlags B (writeLoop (bytesOf C.objs[i].type) m (valueAt B C.objs[i]) v) i f) C.objs[i])
      = v.toNat % 256 ^ bytesOf C.objs[i].type := by
    rw [S.2.2.1 _ (List.getElem_mem hi), value_block, writeLoop_number]
  have hother : ∀ a, ¬ inValue B C.objs[i] a →
      writeLoop (bytesOf C.objs[i].type) m (valueAt B C.objs[i]) v a = m a :=
    fun a ha => writeLoop_other _ _ _ _ _ ha
  refine ⟨?_, hnum, ?_, S.1, ?_, ?_⟩
  · rw [objectRead_spec H2 i hi, hnum, BitVec.toNat_ofNat]
    apply Nat.mod_eq_of_lt
    exact Nat.lt_of_le_of_lt (Nat.mod_le _ _) v.isLt
  · intro p hp hap
    rw [S.2.2.1 p hp]
    exact value_congr fun a ha => hother a (fun h => hap a ⟨h, ha⟩)
  · intro j hj hji
    rw [S.2.1 j hji]
    exact flags_of_values H (fun a ha => hother a (ha _ (List.getElem_mem hi))) j hj
  · intro a ha hb
    rw [S.2.2.2 a hb, hother a ha]

/-- **C16.** `objectWrite(i, v)`: `objectRead(i)` then returns `v` reduced to the size of the object (all of `v` if the
object has at least 4 bytes), the object requests a transmission, and every object with separate storage keeps its value,
every other object its flags, and every other byte of the memory is unchanged. -/
theorem C16_write_read {B : Bcu} {m : Mem} {C : Config} (H : Configured B m C) (i : Nat) (hi : i < C.objs.length) (v : U32) :
    (objectRead B (objectWrite B m i v) i).toNat = v.toNat % 256 ^ bytesOf C.objs[i].type ∧
    number (value B (objectWrite B m i v) C.objs[i]) = v.toNat % 256 ^ bytesOf C.objs[i].type ∧
    (∀ p ∈ C.objs, Apart B C.objs[i] p → value B (objectWrite B m i v) p = value B m p) ∧
    flags (objectWrite B m i v) C i = 3#8 ∧
    (∀ j, j < C.objs.length → j ≠ i → flags (objectWrite B m i v) C j = flags m C j) ∧
    (∀ a, ¬ inValue B C.objs[i] a → a ≠ C.flagsAt + i / 2 → objectWrite B m i v a = m a) :=
  writeFlags_spec H i hi v 3#8 (by decide)

/-- **C16.** `objectUpdate(i, v)` marks the object as updated and requests no transmission; otherwise as `objectWrite`. -/
theorem C16_update_read {B : Bcu} {m : Mem} {C : Config} (H : Configured B m C) (i : Nat) (hi : i < C.objs.length) (v : U32) :
    (objectRead B (objectUpdate B m i v) i).toNat = v.toNat % 256 ^ bytesOf C.objs[i].type ∧
    number (value B (objectUpdate B m i v) C.objs[i]) = v.toNat % 256 ^ bytesOf C.objs[i].type ∧
    (∀ p ∈ C.objs, Apart B C.objs[i] p → value B (objectUpdate B m i v) p = value B m p) ∧
    flags (objectUpdate B m i v) C i = 8#8 ∧
    (∀ j, j < C.objs.length → j ≠ i → flags (objectUpdate B m i v) C j = flags m C j) ∧
    (∀ a, ¬ inValue B C.objs[i] a → a ≠ C.flagsAt + i / 2 → objectUpdate B m i v a = m a) :=
  writeFlags_spec H i hi v 8#8 (by decide)

/-- **C16.** `objectSetValue(i, v)` neither transmits nor marks the object; otherwise as `objectWrite`. -/
theorem C16_setValue_read {B : Bcu} {m : Mem} {C : Config} (H : Configured B m C) (i : Nat) (hi : i < C.objs.length) (v : U32) :
    (objectRead B (objectSetValue B m i v) i).toNat = v.toNat % 256 ^ bytesOf C.objs[i].type ∧
    number (value B (objectSetValue B m i v) C.objs[i]) = v.toNat % 256 ^ bytesOf C.objs[i].type ∧
    (∀ p ∈ C.objs, Apart B C.objs[i] p → value B (objectSetValue B m i v) p = value B m p) ∧
    flags (objectSetValue B m i v) C i = 0#8 ∧
    (∀ j, j < C.objs.length → j ≠ i → flags (objectSetValue B m i v) C j = flags m C j) ∧
    (∀ a, ¬ inValue B C.objs[i] a → a ≠ C.flagsAt + i / 2 → objectSetValue B m i v a = m a) :=
  writeFlags_spec H i hi v 0#8 (by decide)

/-- **C16.** `objectWrite(i, bytes)`: the value of the object consists of exactly the given bytes, a transmission is
requested (the other flags of the object are kept), nothing else changes. -/
theorem C16_write_bytes {B : Bcu} {m : Mem} {C : Config} (H : Configured B m C) (i : Nat) (hi : i < C.objs.length)
    (bytes : Nat → Byte) :
    value B (objectWriteBytes B m i bytes) C.objs[i] = (List.range (bytesOf C.objs[i].type)).map bytes ∧
    (∀ p ∈ C.objs, Apart B C.objs[i] p → value B (objectWriteBytes B m i bytes) p = value B m p) ∧
    flags (objectWriteBytes B m i bytes) C i = flags m C i ||| 3#8 ∧
    (∀ j, j < C.objs.length → j ≠ i → flags (objectWriteBytes B m i bytes) C j = flags m C j) ∧
    (∀ a, ¬ inValue B C.objs[i] a → a ≠ C.flagsAt + i / 2 → objectWriteBytes B m i bytes a = m a) := by
  unfold objectWriteBytes objectWriteBytesFlags
  rw [valuePtr_eq H i hi, objectSize_eq H i hi]
  simp only [Option.getD_some, Int.toNat_natCast]
  obtain ⟨m1, hm1⟩ : ∃ m1 : Mem, (fun a => if valueAt B C.objs[i] ≤ a ∧ a < valueAt B C.objs[i] + bytesOf C.objs[i].type
      then bytes (a - valueAt B C.objs[i]) else m a) = m1 := ⟨_, rfl⟩
  rw [hm1]
  have hother : ∀ a, ¬ inValue B C.objs[i] a → m1 a = m a := by
    intro a ha; rw [← hm1]; exact if_neg ha
  have H1 : Configured B m1 C := H.frame fun a ha => hother a (fun h => ha (Or.inr ⟨_, List.getElem_mem hi, h⟩))
  have S := C15_add_flags H1 i hi 3#8 (by decide)
  have hfl : ∀ j, j < C.objs.length → flags m1 C j = flags m C j := fun j hj =>
    flags_of_values H (fun a ha => hother a (ha _ (List.getElem_mem hi))) j hj
  refine ⟨?_, ?_, ?_, ?_, ?_⟩
  · rw [S.2.2.1 _ (List.getElem_mem hi)]
    unfold value
    apply List.map_congr_left
    intro k hk
    rw [List.mem_range] at hk
    rw [← hm1]
    simp only
    rw [if_pos (by omega)]
    congr 1; omega
  · intro p hp hap
    rw [S.2.2.1 p hp]
    exact value_congr fun a ha => hother a (fun h => hap a ⟨h, ha⟩)
  · rw [S.1, hfl i hi]
  · intro j hj hji
    rw [S.2.1 j hji, hfl j hj]
  · intro a ha hb
    rw [S.2.2.2 a hb, hother a ha]

example : (objectRead BCU1 (objectWrite BCU1 demoM 1 0x12345#32) 1).toNat = 0x2345 := by
  rw [(C16_write_read demo_configured 1 (by decide) _).1]; decide
example : Apart BCU1 demoC.objs[1] demoC.objs[2] := demo_separate 1 2 (by decide) (by decide) (by decide)
example : objectRead MASK0701 (objectUpdate MASK0701 demoM2 2 0xBEEF#32) 2 = 0xBEEF#32 := by decide +kernel
example := C16_setValue_read demo2_configured 0 (by decide) 7#32
example := C16_write_bytes demo_configured 2 (by decide) (fun k => BitVec.ofNat 8 (k + 65))

/-! ## C17: update queue -/

/-- The update flag of object `i` is set. -/
def Updated (m : Mem) (C : Config) (i : Nat) : Prop := flags m C i &&& 8#8 ≠ 0#8

instance (m : Mem) (C : Config) (i : Nat) : Decidable (Updated m C i) := by unfold Updated; infer_instance

/-- What one call of `nextUpdatedObject` may do. -/
def ReportsLowest (C : Config) (m m' : Mem) : Option Nat → Prop
  | none => m' = m ∧ ∀ i < C.objs.length, ¬ Updated m C i
  | some i => i < C.objs.length ∧ Updated m C i ∧ (∀ j < i, ¬ Updated m C j) ∧
      flags m' C i = flags m C i &&& 7#8 ∧ (∀ j, j ≠ i → flags m' C j = flags m C j) ∧
      ∀ a, a ≠ C.flagsAt + i / 2 → m' a = m a

theorem updatedLoop_spec (C : Config) (m : Mem) : ∀ (n i : Nat), i + n = C.objs.length → (∀ j < i, ¬ Updated m C j) →
    ReportsLowest C m (updatedLoop C.flagsAt n i m).1 (updatedLoop C.flagsAt n i m).2
  | 0, i, hn, h => ⟨rfl, fun j hj => h j (by omega)⟩
  | n + 1, i, hn, h => by
    unfold updatedLoop
    simp only
    obtain ⟨n1, n2, n3, n4, n5, n6⟩ := nib_upd (m (C.flagsAt + i / 2))
    have hiff : (m (C.flagsAt + i / 2) &&& (if i % 2 = 1 then 0x80#8 else 0x8#8) ≠ 0#8) ↔ Updated m C i := by
      unfold Updated flags
      split
      · exact n1
      · exact n2
    by_cases hu : Updated m C i
    · rw [if_pos (hiff.mpr hu)]
      have key : ∀ j, flags (poke m (C.flagsAt + i / 2)
          (m (C.flagsAt + i / 2) &&& ~~~(m (C.flagsAt + i / 2) &&& (if i % 2 = 1 then 0x80#8 else 0x8#8)))) C j =
          if j = i then flags m C i &&& 7#8 else flags m C j := by
        apply flags_poke
        · intro ho
          rw [if_pos ho]
          unfold flags
          rw [if_pos ho]
          exact ⟨n3, n4⟩
        · intro he
          rw [if_neg (by omega)]
          unfold flags
          rw [if_neg (by omega)]
          exact ⟨n5, n6⟩
      refine ⟨by omega, hu, h, ?_, ?_, ?_⟩
      · rw [key, if_pos rfl]
      · intro j hj; rw [key, if_neg hj]
      · intro a ha; exact poke_other ha
    · rw [if_neg (fun hc => hu (hiff.mp hc))]
      apply updatedLoop_spec C m n (i + 1) (by omega)
      intro j hj
      by_cases e : j = i
      · exact e ▸ hu
      · exact h j (by omega)

/-- **C17.** `nextUpdatedObject()` reports the lowest updated object and clears exactly its update flag; it reports none
only if no object is updated, and then changes nothing. -/
theorem C17_reports_lowest {B : Bcu} {m : Mem} {C : Config} (H : Configured B m C) :
    ReportsLowest C m (nextUpdatedObject B m).1 (nextUpdatedObject B m).2 := by
  unfold nextUpdatedObject
  rw [flagsTable_eq H, objectCount_eq H]
  exact updatedLoop_spec C m _ 0 (by omega) (fun j hj => by omega)

/-- Call `nextUpdatedObject` until it reports none, at most `k` times. The second component are the reported objects. -/
def pollAll (B : Bcu) : Nat → Mem → Mem × List Nat
  | 0, m => (m, [])
  | k + 1, m =>
    match nextUpdatedObject B m with
    | (m', none) => (m', [])
    | (m', some i) => ((pollAll B k m').1, i :: (pollAll B k m').2)

theorem reports_configured {B : Bcu} {m m' : Mem} {C : Config} (H : Configured B m C) {i : Nat}
    (h : ReportsLowest C m m' (some i)) : Configured B m' C :=
  H.frame fun a ha => h.2.2.2.2.2 a (fun e => ha (Or.inl (e ▸ flagByte_inFlags h.1)))

theorem and7_and8 (b : Byte) : b &&& 7#8 &&& 8#8 = 0#8 := by
  rw [BitVec.and_assoc]; simp

theorem filter_range_split (p : Nat → Bool) (n i : Nat) (hi : i < n) (hp : p i = true) (hl : ∀ j < i, p j = false) (q : Nat → Bool)
    (hq : ∀ j, j ≠ i → q j = p j) (hqi : q i = false) :
    (List.range n).filter p = i :: (List.range n).filter q := by
  have e : List.range n = List.range i ++ (i :: (List.range (n - i - 1)).map (· + (i + 1))) := by
    have h1 : List.range n = List.range (i + (n - i)) := by congr 1; omega
    rw [h1, List.range_add]
    congr 1
    have h2 : List.range (n - i) = List.range (n - i - 1 + 1) := by congr 1; omega
    rw [h2, List.range_succ_eq_map]
    simp [List.map_map, Function.comp_def, Nat.add_left_comm]
  rw [e, List.filter_append, List.filter_append, List.filter_cons_of_pos hp, List.filter_cons_of_neg (by simp [hqi])]
  have z1 : (List.range i).filter p = [] := by
    rw [List.filter_eq_nil_iff]; intro j hj; rw [List.mem_range] at hj; simp [hl j hj]
  have z2 : (List.range i).filter q = [] := by
    rw [List.filter_eq_nil_iff]; intro j hj; rw [List.mem_range] at hj
    rw [hq j (by omega)]; simp [hl j hj]
  rw [z1, z2]
  simp only [List.nil_append]
  congr 1
  apply List.filter_congr
  intro j hj
  rw [List.mem_map] at hj
  obtain ⟨k, _, rfl⟩ := hj
  exact (hq _ (by omega)).symm

theorem pollAll_spec {B : Bcu} {C : Config} : ∀ (k : Nat) (m : Mem), Configured B m C →
    ((List.range C.objs.length).filter (fun i => decide (Updated m C i))).length < k →
    (pollAll B k m).2 = (List.range C.objs.length).filter (fun i => decide (Updated m C i)) ∧
    (∀ i < C.objs.length, flags (pollAll B k m).1 C i = flags m C i &&& 7#8) ∧
    (nextUpdatedObject B (pollAll B k m).1).2 = none ∧
    (∀ a, ¬ inFlags C a → (pollAll B k m).1 a = m a)
  | 0, m, _, hk => by omega
  | k + 1, m, H, hk => by
    have R := C17_reports_lowest H
    unfold pollAll
    rcases h : nextUpdatedObject B m with ⟨m', _ | i⟩
    · rw [h] at R
      obtain ⟨hm, hn⟩ := R
      simp only at hm
      subst hm
      have h8 : ∀ b : Byte, b.toNat < 16 → ¬ b &&& 8#8 ≠ 0#8 → b = b &&& 7#8 := by decide +kernel
      refine ⟨?_, ?_, ?_, fun _ _ => rfl⟩
      · symm; rw [List.filter_eq_nil_iff]
        intro i hi; rw [List.mem_range] at hi
        simpa using hn i hi
      · intro i hi
        exact h8 _ (flags_lt m' C i) (hn i hi)
      · simp only [h]
    · rw [h] at R
      have H' := reports_configured H R
      obtain ⟨hi, hu, hl, hf, ho, ha⟩ := R
      simp only at hf ho ha
      have hsplit := filter_range_split (fun i => decide (Updated m C i)) C.objs.length i hi (by simpa using hu)
        (by simpa using hl) (fun j => decide (Updated m' C j))
        (by intro j hj; simp only [Updated, ho j hj])
        (by simp [Updated, hf, and7_and8])
      rw [hsplit] at hk ⊢
      obtain ⟨p1, p2, p3, p4⟩ := pollAll_spec k m' H' (by simpa using hk)
      refine ⟨by simp only [p1], ?_, p3, ?_⟩
      · intro j hj
        rw [p2 j hj]
        by_cases e : j = i
        · subst e; rw [hf, BitVec.and_assoc]; rfl
        · rw [ho j e]
      · intro a hna
        rw [p4 a hna]
        exact ha a (fun e => hna (e ▸ flagByte_inFlags hi))

/-- **C17.** Calling `nextUpdatedObject()` until it reports none takes at most one call more than there are objects,
reports every updated object exactly once in ascending order, clears the update flags and nothing else. -/
theorem C17_enumerates {B : Bcu} {m : Mem} {C : Config} (H : Configured B m C) (k : Nat) (hk : C.objs.length < k) :
    (pollAll B k m).2 = (List.range C.objs.length).filter (fun i => decide (Updated m C i)) ∧
    (∀ i < C.objs.length, flags (pollAll B k m).1 C i = flags m C i &&& 7#8) ∧
    (nextUpdatedObject B (pollAll B k m).1).2 = none ∧
    (∀ a, ¬ inFlags C a → (pollAll B k m).1 a = m a) :=
  pollAll_spec k m H (Nat.lt_of_le_of_lt (by
    have := List.length_filter_le (fun i => decide (Updated m C i)) (List.range C.objs.length)
    simpa using this) hk)

example : (pollAll BCU1 5 (objectUpdate BCU1 (objectUpdate BCU1 demoM 3 1#32) 1 500#32)).2 = [1, 3] := by decide +kernel
example : Updated (objectUpdate BCU1 demoM 3 1#32) demoC 3 := by decide +kernel
example := C17_enumerates demo_configured 5 (by decide)

end Verif.Com
