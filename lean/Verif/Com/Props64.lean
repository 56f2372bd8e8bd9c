import Verif.Com.SystemBLemmas
import Verif.Com.PropsGroup

/-!
# C64: group objects of a System B device

The claim: the values of the objects are stored apart from each other, reading returns what was written, a received value
is taken by exactly the writable objects on its address, a read request is answered by the readable ones, the application is
told about updates and written values are sent.

The library does not fulfil all of it. It takes two unrelated bytes of the group object table for the address of the flags
(`flagsWord`), and it takes the high byte of the number of objects for that number. The first four parts hold as long as those
two bytes are no address of the user memory (`NoFlags`), and answers as long as the values have at most 14 bytes. The last two
parts are false for all devices with less than 256 objects.
-/

namespace Verif.Com.SysB

/-! ## A device -/

/-- The memory that holds the tables and zero everywhere else. -/
def memOf (C : Config) : Mem := fun a =>
  match (image C).find? (fun t => decide (t.1 ≤ a) && decide (a < t.1 + t.2.length)) with
  | some t => t.2.getD (a - t.1) 0#8
  | none => 0#8

/-- Four objects: two switches on group address 1/1/1, a two-byte value on 1/1/2 and a four-byte value on 1/1/1 that may not
be written. -/
def demoC : Config where
  groups := [0x0901#16, 0x0902#16]
  assoc := [(1, 1), (2, 2), (1, 3), (1, 4)]
  objs := [⟨0x5C#8, 0⟩, ⟨0x5C#8, 8⟩, ⟨0x54#8, 0⟩, ⟨0x4C#8, 10⟩]
  addrAt := 0x3400
  assocAt := 0x3440
  commAt := 0x3480

theorem demo_configured : Configured (memOf demoC) demoC where
  valid := ⟨by decide, by decide, by decide, by decide, by decide⟩
  tables := by
    have : ∀ t ∈ image demoC, ∀ i, (h : i < t.2.length) → memOf demoC (t.1 + i) = t.2[i] := by decide +kernel
    exact this
theorem demo_noFlags : NoFlags false demoC := by unfold NoFlags; decide
example : NoFlags true demoC := by unfold NoFlags; decide

/-! ## Reading and writing by the application -/

/-- **C64.** `objectRead` returns the number that is stored as the value of the object, in bytes of its own in the user RAM:
all of it for up to 4 bytes, the lower 4 bytes of longer ones. -/
theorem C64_read {m : Mem} {C : Config} (H : Configured m C) (k : Nat) (hk : k < C.objs.length) :
    (objectRead m (k + 1)).toNat = number (value m C k) % 2 ^ 32 ∧
    (∀ a, inValue C k a → 0x5FE ≤ a ∧ a < 0x900) ∧
    (∀ j < C.objs.length, j ≠ k → ∀ a, ¬ (inValue C k a ∧ inValue C j a)) := by
  refine ⟨?_, ?_, ?_⟩
  · rw [objectRead_spec H k hk, BitVec.toNat_ofNat]
  · intro a ha
    have := valueAt_ram H.valid hk
    unfold inValue at ha
    omega
  · intro j hj hjk a ⟨h1, h2⟩
    exact hjk (value_apart h2 h1)

theorem writeFlags_spec {le : Bool} {m : Mem} {C : Config} (H : Configured m C) (N : NoFlags le C) (k : Nat)
    (hk : k < C.objs.length) (v : U32) (f : Byte) :
    (objectRead (objectWriteFlags le m (k + 1) v f) (k + 1)).toNat = v.toNat % 256 ^ bytesOf C.objs[k].type ∧
    number (value (objectWriteFlags le m (k + 1) v f) C k) = v.toNat % 256 ^ bytesOf C.objs[k].type ∧
    (∀ j < C.objs.length, j ≠ k → value (objectWriteFlags le m (k + 1) v f) C j = value m C j) ∧
    (∀ a, ¬ inValue C k a → objectWriteFlags le m (k + 1) v f a = m a) := by
  have hr := valueAt_ram H.valid hk
  unfold objectWriteFlags
  rw [valuePtr_eq H k hk, objectSize_eq H k hk]
  simp only
  have hother : ∀ a, ¬ inValue C k a → writeLoop (bytesAt C k) m (valueAt C k) v a = m a :=
    fun a ha => writeLoop_other _ _ _ _ _ ha
  have H1 : Configured (writeLoop (bytesAt C k) m (valueAt C k) v) C :=
    H.frame fun a ha => hother a (fun h => by unfold inValue at h; omega)
  rw [setFlags_none H1 N (by omega)]
  have hn : number (value (writeLoop (bytesAt C k) m (valueAt C k) v) C k) = v.toNat % 256 ^ bytesOf C.objs[k].type := by
    rw [value_block, writeLoop_number, bytesAt_eq hk]
  refine ⟨?_, hn, ?_, hother⟩
  · rw [objectRead_spec H1 k hk, hn, BitVec.toNat_ofNat]
    exact Nat.mod_eq_of_lt (Nat.lt_of_le_of_lt (Nat.mod_le _ _) v.isLt)
  · intro j hj hjk
    exact value_congr fun a ha => hother a (fun h => hjk (value_apart ha h))

/-- **C64, partial** (`NoFlags`). `objectWrite(i, v)`: `objectRead(i)` then returns `v` reduced to the size of the object, all
other objects keep their values and every other byte of the memory is unchanged. Missing: the request to send the value. -/
theorem C64_write_read_partial {le : Bool} {m : Mem} {C : Config} (H : Configured m C) (N : NoFlags le C) (k : Nat)
    (hk : k < C.objs.length) (v : U32) :
    (objectRead (objectWrite le m (k + 1) v) (k + 1)).toNat = v.toNat % 256 ^ bytesOf C.objs[k].type ∧
    number (value (objectWrite le m (k + 1) v) C k) = v.toNat % 256 ^ bytesOf C.objs[k].type ∧
    (∀ j < C.objs.length, j ≠ k → value (objectWrite le m (k + 1) v) C j = value m C j) ∧
    (∀ a, ¬ inValue C k a → objectWrite le m (k + 1) v a = m a) := writeFlags_spec H N k hk v 3#8

/-- **C64, partial** (`NoFlags`). The same for `objectUpdate`. Missing: the mark as updated. -/
theorem C64_update_read_partial {le : Bool} {m : Mem} {C : Config} (H : Configured m C) (N : NoFlags le C) (k : Nat)
    (hk : k < C.objs.length) (v : U32) :
    (objectRead (objectUpdate le m (k + 1) v) (k + 1)).toNat = v.toNat % 256 ^ bytesOf C.objs[k].type ∧
    number (value (objectUpdate le m (k + 1) v) C k) = v.toNat % 256 ^ bytesOf C.objs[k].type ∧
    (∀ j < C.objs.length, j ≠ k → value (objectUpdate le m (k + 1) v) C j = value m C j) ∧
    (∀ a, ¬ inValue C k a → objectUpdate le m (k + 1) v a = m a) := writeFlags_spec H N k hk v 8#8

/-- **C64, partial** (`NoFlags`). The same for `objectSetValue`. -/
theorem C64_setValue_read_partial {le : Bool} {m : Mem} {C : Config} (H : Configured m C) (N : NoFlags le C) (k : Nat)
    (hk : k < C.objs.length) (v : U32) :
    (objectRead (objectSetValue le m (k + 1) v) (k + 1)).toNat = v.toNat % 256 ^ bytesOf C.objs[k].type ∧
    number (value (objectSetValue le m (k + 1) v) C k) = v.toNat % 256 ^ bytesOf C.objs[k].type ∧
    (∀ j < C.objs.length, j ≠ k → value (objectSetValue le m (k + 1) v) C j = value m C j) ∧
    (∀ a, ¬ inValue C k a → objectSetValue le m (k + 1) v a = m a) := writeFlags_spec H N k hk v 0#8

/-- **C64, partial** (`NoFlags`). `objectWrite(i, bytes)`: the value consists of exactly the given bytes, nothing else changes.
Missing: the request to send the value. -/
theorem C64_write_bytes_partial {le : Bool} {m : Mem} {C : Config} (H : Configured m C) (N : NoFlags le C) (k : Nat)
    (hk : k < C.objs.length) (bytes : Nat → Byte) :
    value (objectWriteBytes le m (k + 1) bytes) C k = (List.range (bytesOf C.objs[k].type)).map bytes ∧
    (∀ j < C.objs.length, j ≠ k → value (objectWriteBytes le m (k + 1) bytes) C j = value m C j) ∧
    (∀ a, ¬ inValue C k a → objectWriteBytes le m (k + 1) bytes a = m a) := by
  have hr := valueAt_ram H.valid hk
  unfold objectWriteBytes objectWriteBytesFlags
  rw [valuePtr_eq H k hk, objectSize_eq H k hk]
  simp only [Option.getD_some]
  obtain ⟨m1, hm1⟩ : ∃ m1 : Mem, (fun a => if valueAt C k ≤ a ∧ a < valueAt C k + bytesAt C k
      then bytes (a - valueAt C k) else m a) = m1 := ⟨_, rfl⟩
  rw [hm1]
  have hother : ∀ a, ¬ inValue C k a → m1 a = m a := by
    intro a ha; rw [← hm1]; exact if_neg ha
  have H1 : Configured m1 C := H.frame fun a ha => hother a (fun h => by unfold inValue at h; omega)
  rw [addFlags_none H1 N (by omega)]
  refine ⟨?_, ?_, hother⟩
  · unfold value
    rw [← bytesAt_eq hk]
    apply List.map_congr_left
    intro j hj
    rw [List.mem_range] at hj
    rw [← hm1]
    simp only
    rw [if_pos (by omega)]
    congr 1; omega
  · intro j hj hjk
    exact value_congr fun a ha => hother a (fun h => hjk (value_apart ha h))

example : (objectRead (objectWrite false (memOf demoC) 2 0x12345#32) 2).toNat = 0x2345 := by
  rw [(C64_write_read_partial demo_configured demo_noFlags 1 (by decide) _).1]; decide

/-! ## Group telegrams -/

/-- **C64, partial** (`NoFlags`). A received value (write or response) is stored in exactly the objects that are associated
with the destination address and may be written; nothing else changes and nothing is sent. Missing: the mark as updated. -/
theorem C64_receive_value_partial {le : Bool} {C : Config} (N : NoFlags le C) (s : St) (H : Configured s.mem C) (tel : Tel)
    (g : Word) (hg : destOf tel = g.toNat) (hs : serviceOf tel = .write ∨ serviceOf tel = .response) :
    Takes C (fun i => Linked C g i ∧ ∃ j, ∃ h : j < C.objs.length, i = j + 1 ∧ Writable C.objs[j]) tel s.mem
      (receiveGroup le s tel).1.mem ∧
    (receiveGroup le s tel).2 = [] ∧ (receiveGroup le s tel).1.buf = s.buf ∧ (receiveGroup le s tel).1.next = s.next := by
  obtain ⟨a1, a2, _⟩ := apci_service tel
  unfold receiveGroup
  simp only
  rw [if_pos (hs.elim (fun h => Or.inl (a1.mpr h)) (fun h => Or.inr (a2.mpr h))), makeWord_dest hg]
  refine ⟨?_, rfl, rfl, rfl⟩
  apply (processGroupWrite_takes H N g tel none).congr
  intro i hi
  constructor
  · rintro ⟨h1, _, h2⟩; exact ⟨h1, h2⟩
  · rintro ⟨h1, h2⟩; exact ⟨h1, by simp, h2⟩

/-- **C64, partial** (`NoFlags`, and no object has more than 14 bytes). A read request for a group address is answered by
exactly the readable objects associated with it, in the order of the association table, each with one response telegram that
carries its current value. -/
theorem C64_read_answered_partial {le : Bool} {C : Config} (N : NoFlags le C) (h14 : ∀ o ∈ C.objs, bytesOf o.type ≤ 14) (s : St)
    (H : Configured s.mem C) (tel : Tel) (g : Word) (hg : destOf tel = g.toNat) (hs : serviceOf tel = .read) :
    Answers C g (answering C g) s.mem (receiveGroup le s tel).1.mem (receiveGroup le s tel).2 := by
  obtain ⟨a1, a2, a3⟩ := apci_service tel
  unfold receiveGroup
  simp only
  rw [if_neg (fun c => by rcases c with c | c; exact absurd (a1.mp c) (by simp [hs]); exact absurd (a2.mp c) (by simp [hs])),
    if_pos (a3.mpr hs), makeWord_dest hg]
  split
  · rename_i hn
    have : answering C g = [] := by
      unfold answering
      rw [List.filter_eq_nil_iff.mpr]
      · rfl
      · intro p hp
        rw [answersTo_iff]
        rintro ⟨h, _⟩
        exact indexOfAddr_none H hn (List.mem_of_getElem? h)
    rw [this]
    exact Answers.nil _
  · rename_i r hr
    rw [assocTable_eq H]
    simp only [Option.getD_some]
    rw [assocCount_eq H]
    have := readAssocLoop_spec N h14 g r (fun p hp => linked_index H hr p hp) C.assoc.length s H (Nat.le_refl _)
    simpa [answering] using this

/-- **C64.** A group telegram of any other service changes nothing. -/
theorem C64_receive_other (le : Bool) (s : St) (tel : Tel) (hs : serviceOf tel = .other) : receiveGroup le s tel = (s, []) := by
  obtain ⟨a1, a2, a3⟩ := apci_service tel
  unfold receiveGroup
  simp only
  rw [if_neg (fun c => by rcases c with c | c; exact absurd (a1.mp c) (by simp [hs]); exact absurd (a2.mp c) (by simp [hs])),
    if_neg (fun c => absurd (a3.mp c) (by simp [hs]))]

/-- A received write to group address 1/1/1 (0x0901) with value 1. -/
def demoTel : Tel := fun k => [0xBC#8, 0x12#8, 0x05#8, 0x09#8, 0x01#8, 0xe1#8, 0x00#8, 0x81#8].getD k 0#8
/-- A read request for the same address. -/
def demoRead : Tel := fun k => [0xBC#8, 0x12#8, 0x05#8, 0x09#8, 0x01#8, 0xe1#8, 0x00#8, 0x00#8].getD k 0#8
example : destOf demoTel = (0x0901#16).toNat ∧ serviceOf demoTel = .write ∧ serviceOf demoRead = .read := by decide
example : (∀ o ∈ demoC.objs, bytesOf o.type ≤ 14) ∧ answering demoC 0x0901#16 = [1, 4] := by decide
example : (value (receiveGroup false ⟨memOf demoC, fun _ => 0, 0⟩ demoTel).1.mem demoC 0 = [1#8]) ∧
    (value (receiveGroup false ⟨memOf demoC, fun _ => 0, 0⟩ demoTel).1.mem demoC 2 = [1#8]) ∧
    (value (receiveGroup false ⟨memOf demoC, fun _ => 0, 0⟩ demoTel).1.mem demoC 3 = [0#8, 0#8, 0#8, 0#8]) := by decide +kernel

/-! ## What does not work -/

/-- **C64, negative.** With less than 256 objects `nextUpdatedObject` never reports an object, whatever has been received. -/
theorem C64_nothing_reported {le : Bool} {m : Mem} {C : Config} (H : Configured m C) (h : C.objs.length < 256) :
    nextUpdatedObject le m = (m, none) := by
  unfold nextUpdatedObject
  have e : objectCount m = 0 := by rw [objectCount_eq H]; omega
  split
  · rfl
  · rw [e]; rfl

/-- **C64, negative.** With less than 256 objects `sendNextGroupTelegram` never sends anything, whatever the application has
written. -/
theorem C64_nothing_sent {le : Bool} {s : St} {C : Config} (H : Configured s.mem C) (h : C.objs.length < 256) :
    sendNextGroupTelegram le s = (s, false, []) := by
  unfold sendNextGroupTelegram
  have e : objectCount s.mem = 0 := by rw [objectCount_eq H]; omega
  split
  · rfl
  · rw [e]; rfl

theorem objs_le {C : Config} (V : Valid C) : C.objs.length ≤ 770 := by
  have h1 : C.objs.length ≤ (sizes C).sum := by
    have : ∀ l : List Obj, (∀ o ∈ l, o.type < 256) → l.length ≤ (l.map (fun o => bytesOf o.type)).sum := by
      intro l
      induction l with
      | nil => intro _; exact Nat.le_refl _
      | cons o l ih =>
        intro h
        have h1 := bytesOf_pos (h o (by simp))
        have h2 := ih (fun o ho => h o (by simp [ho]))
        simp only [List.map_cons, List.sum_cons, List.length_cons]
        omega
    exact this _ V.types
  have h2 := V.values
  omega

theorem updatedLoop_lt (tab : Nat) : ∀ (n i : Nat) (m : Mem) (k : Nat), (updatedLoop tab n i m).2 = some k → k < i + n
  | 0, _, _, _, h => by simp [updatedLoop] at h
  | n + 1, i, m, k, h => by
    unfold updatedLoop at h
    simp only at h
    generalize m (tab + i / 2) &&& (if i % 2 = 1 then 0x80#8 else 0x8#8) = f at h
    by_cases hf : f ≠ 0#8
    · rw [if_pos hf] at h
      simp only [Option.some.injEq] at h
      omega
    · rw [if_neg hf] at h
      have := updatedLoop_lt tab n (i + 1) m k h
      omega

theorem firstObjectAddr_zero {m : Mem} {C : Config} (H : Configured m C) (h : C.assoc.length < 256) (i : Nat) :
    firstObjectAddr m i = 0#16 := by
  unfold firstObjectAddr
  rw [assocTable_eq H]
  have h0 := H.assocT.get (i := 0) rfl
  rw [Nat.add_zero] at h0
  simp only [Option.getD_some, h0, BitVec.toNat_ofNat]
  rw [show C.assoc.length / 256 % 2 ^ 8 = 0 by omega]
  rfl

theorem sendLoop_spec (le : Bool) (tab : Nat) : ∀ (n i : Nat) (s : St),
    ((sendLoop le tab n i s).2.1 = false → (sendLoop le tab n i s).2.2 = [] ∧ (sendLoop le tab n i s).1.mem = s.mem) ∧
    ((∀ k, firstObjectAddr s.mem k = 0#16) → (sendLoop le tab n i s).2.1 = false) ∧
    ((sendLoop le tab n i s).2.1 = true → (sendLoop le tab n i s).1.next ≤ i + n)
  | 0, _, _ => ⟨fun _ => ⟨rfl, rfl⟩, fun _ => rfl, fun h => by simp [sendLoop] at h⟩
  | n + 1, i, s => by
    have ih := sendLoop_spec le tab n (i + 1) s
    rw [show i + 1 + n = i + (n + 1) by omega] at ih
    unfold sendLoop
    simp only
    split
    · exact ih
    · rename_i hc
      split
      · refine ⟨fun h => by simp at h, fun h => absurd (Or.inl (h i)) hc, fun _ => ?_⟩
        show i + 1 ≤ i + (n + 1)
        omega
      · exact ih

/-- **C64, negative.** In every configuration `nextUpdatedObject` reports at most the first three object numbers (0, which is no
object, 1 and 2), whatever has been received. -/
theorem C64_reported_at_most {le : Bool} {m : Mem} {C : Config} (H : Configured m C) (k : Nat)
    (h : (nextUpdatedObject le m).2 = some k) : k < 3 ∧ 256 ≤ C.objs.length := by
  have hn := objs_le H.valid
  have e := objectCount_eq H
  unfold nextUpdatedObject at h
  split at h
  · simp at h
  · have := updatedLoop_lt _ _ _ _ _ h
    omega

/-- **C64, negative.** In every configuration `sendNextGroupTelegram` sends at most the objects with the numbers 0, 1 and 2, and none
at all as long as there are less than 256 associations. If it returns false then nothing was sent and the memory is unchanged. -/
theorem C64_sent_at_most {le : Bool} {s : St} {C : Config} (H : Configured s.mem C) :
    ((sendNextGroupTelegram le s).2.1 = false →
      (sendNextGroupTelegram le s).2.2 = [] ∧ (sendNextGroupTelegram le s).1.mem = s.mem) ∧
    (C.assoc.length < 256 → (sendNextGroupTelegram le s).2.1 = false) ∧
    ((sendNextGroupTelegram le s).2.1 = true → (sendNextGroupTelegram le s).1.next ≤ 3 ∧ 256 ≤ C.objs.length) := by
  have hn := objs_le H.valid
  have e := objectCount_eq H
  unfold sendNextGroupTelegram
  split
  · exact ⟨fun _ => ⟨rfl, rfl⟩, fun _ => rfl, fun h => by simp at h⟩
  · rename_i tab _
    simp only
    split
    · exact ⟨fun _ => ⟨rfl, rfl⟩, fun _ => rfl, fun h => by simp at h⟩
    · rename_i h0
      have hl : s.next % objectCount s.mem < objectCount s.mem := Nat.mod_lt _ (by omega)
      obtain ⟨h1, h2, h3⟩ := sendLoop_spec le tab (objectCount s.mem - s.next % objectCount s.mem) (s.next % objectCount s.mem)
        { s with next := s.next % objectCount s.mem }
      refine ⟨h1, fun h => h2 (fun k => firstObjectAddr_zero H h k), fun h => ?_⟩
      have := h3 h
      omega

/-- **C64, negative.** The number of group addresses that a System B device finds in its table (`addrCount`) has its two bytes exchanged. -/
theorem C64_addr_count {m : Mem} {C : Config} (H : Configured m C) :
    addrCount m = C.groups.length % 256 * 256 + C.groups.length / 256 := by
  have hi := H.addrIn
  have hn := addrNum_eq H
  unfold addrCount
  rw [addrTable_eq H]
  simp only [Option.getD_some]
  have h0 := H.addr.get (i := 0) rfl
  have h1 := H.addr.get (i := 1) rfl
  rw [Nat.add_zero] at h0
  rw [h0, h1]
  have := makeWord_be (C.groups.length % 256 * 256 + C.groups.length / 256) (by omega)
  rw [← this]
  have hd : C.groups.length / 256 < 256 := by omega
  have e1 : (C.groups.length % 256 * 256 + C.groups.length / 256) / 256 = C.groups.length % 256 := by
    rw [Nat.add_comm, Nat.add_mul_div_right _ _ (by omega), Nat.div_eq_of_lt hd, Nat.zero_add]
  rw [e1]
  congr 2 <;> apply BitVec.eq_of_toNat_eq <;> simp only [BitVec.toNat_ofNat] <;> omega

example : addrCount (memOf demoC) = 512 ∧ demoC.groups.length = 2 := by decide +kernel

/-- 262 switches. The 95th has its value where the library looks for the flags (0x65C). -/
def manyC : Config where
  groups := [0x0901#16]
  assoc := [(1, 95)]
  objs := List.replicate 262 ⟨0x5C#8, 7⟩
  addrAt := 0x3400
  assocAt := 0x3440
  commAt := 0x3700

/-- The value of the 95th is 0x80. -/
def manyMem : Mem := fun a => if a = 0x65C then 0x80#8 else memOf manyC a

theorem many_configured : Configured manyMem manyC where
  valid := ⟨by decide +kernel, by decide +kernel, by decide +kernel, by decide +kernel, by decide +kernel⟩
  tables := by
    have : ∀ t ∈ image manyC, ∀ i, (h : i < t.2.length) → manyMem (t.1 + i) = t.2[i] := by decide +kernel
    exact this
/-- Nothing was received. -/
example : objectCount manyMem = 1 ∧ objectFlagsTable false manyMem = some 0x65C ∧ value manyMem manyC 94 = [0x80#8] ∧
    (nextUpdatedObject false manyMem).2 = none ∧ (nextUpdatedObject false (poke manyMem 0x65C 0x08#8)).2 = some 0 := by
  decide +kernel

/-- Six texts of 14 bytes that may be read and written. -/
def sixC : Config where
  groups := [0x0901#16]
  assoc := [(1, 1)]
  objs := [⟨0x1C#8, 14⟩, ⟨0x1C#8, 14⟩, ⟨0x1C#8, 14⟩, ⟨0x1C#8, 14⟩, ⟨0x1C#8, 14⟩, ⟨0x1C#8, 14⟩]
  addrAt := 0x3400
  assocAt := 0x3440
  commAt := 0x3480

theorem six_configured : Configured (memOf sixC) sixC where
  valid := ⟨by decide, by decide, by decide, by decide, by decide⟩
  tables := by
    have : ∀ t ∈ image sixC, ∀ i, (h : i < t.2.length) → memOf sixC (t.1 + i) = t.2[i] := by decide +kernel
    exact this

/-- **C64, negative.** Without `NoFlags` writing one object changes the value of another one: the flags of the object are
written into it. With six texts, writing the first changes the third. -/
theorem C64_flags_overwrite : ∃ (m : Mem) (C : Config), Configured m C ∧ ∃ i < C.objs.length, ∃ j < C.objs.length, j ≠ i ∧
    ∃ v : U32, value (objectWrite false m (i + 1) v) C j ≠ value m C j :=
  ⟨memOf sixC, sixC, six_configured, 0, by decide, 2, by decide, by decide, 1#32, by decide +kernel⟩

/-- One object of 15 bytes that may be read. -/
def longC : Config where
  groups := [0x0901#16]
  assoc := [(1, 1)]
  objs := [⟨0x0C#8, 21⟩]
  addrAt := 0x3400
  assocAt := 0x3440
  commAt := 0x3480

theorem long_configured : Configured (memOf longC) longC where
  valid := ⟨by decide, by decide, by decide, by decide, by decide⟩
  tables := by
    have : ∀ t ∈ image longC, ∀ i, (h : i < t.2.length) → memOf longC (t.1 + i) = t.2[i] := by decide +kernel
    exact this

/-- **C64, negative.** Why the size of the values is restricted: a read request for an object of 15 bytes is answered with a
telegram that does not carry the value (7 bytes, its length field says 0). -/
theorem C64_long_value_not_sent : ∃ (s : St) (C : Config), Configured s.mem C ∧ NoFlags false C ∧ ∃ (tel : Tel) (g : Word),
    destOf tel = g.toNat ∧ serviceOf tel = .read ∧ answering C g = [1] ∧
    ∃ f, (receiveGroup false s tel).2 = [f] ∧ f.length = 7 ∧
      ∀ o ∈ C.objs, ¬ IsFrame f (valueBody g o (value s.mem C 0) 0x40#8) := by
  refine ⟨⟨memOf longC, fun _ => 0, 0⟩, longC, long_configured, by unfold NoFlags; decide, demoRead, 0x0901#16, by decide, by decide,
    by decide, [0xBC#8, 0#8, 0#8, 0x09#8, 0x01#8, 0xe0#8, 0#8], by decide +kernel, rfl, ?_⟩
  intro o ho
  rintro ⟨_, hl, _⟩
  have : ∀ o ∈ longC.objs, 3 + (valueBody 0x0901#16 o (value (memOf longC) longC 0) 0x40#8).length ≠ 7 := by decide +kernel
  exact this o ho hl.symm

end Verif.Com.SysB
