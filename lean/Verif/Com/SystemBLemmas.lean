import Verif.Com.SystemB
import Verif.Com.SystemBSpec
import Verif.Com.SendLemmas

/-!
# Auxiliary lemmas: group objects of a System B device
-/

namespace Verif.Com.SysB

open Verif.Bytes (makeWord)

theorem sizeOfType_eq {t : Nat} (h : t < 256) : sizeOfType t = bytesOf t := by
  have : ∀ t < 256, sizeOfType t = bytesOf t := by decide +kernel
  exact this t h

theorem bytesOf_pos {t : Nat} (h : t < 256) : 1 ≤ bytesOf t := by
  have : ∀ t < 256, 1 ≤ bytesOf t := by decide +kernel
  exact this t h

theorem bytesOf_small {t : Nat} (h : t < 6) : bytesOf t = 1 := by
  have : ∀ t < 6, bytesOf t = 1 := by decide
  exact this t h

theorem ram_ptr {a : Nat} (h1 : 0x5FC ≤ a) (h2 : a < 0x900) (le : Bool) : userMemoryPtr (dev le) a = some a :=
  userMemoryPtr_seg (len := 1) (Or.inl ⟨h1, by show a + 1 ≤ 0x5FC + 0x304; omega⟩) (Nat.le_refl _)

theorem eep_ptr {a : Nat} (h1 : 0x3300 ≤ a) (h2 : a < 0x3F00) (le : Bool) : userMemoryPtr (dev le) a = some a :=
  userMemoryPtr_seg (len := 1) (Or.inr ⟨h1, by show a + 1 ≤ 0x3300 + 3072; omega⟩) (Nat.le_refl _)

theorem ptr_none {a : Nat} (h1 : ¬ (0x5FC ≤ a ∧ a < 0x900)) (h2 : ¬ (0x3300 ≤ a ∧ a < 0x3F00)) (le : Bool) :
    userMemoryPtr (dev le) a = none := by
  unfold userMemoryPtr inRange dev
  simp only
  rw [if_neg (by simp; omega), if_neg (by simp; omega)]

/-! ## The values -/

theorem bytesAt_eq {C : Config} {k : Nat} (hk : k < C.objs.length) : bytesAt C k = bytesOf C.objs[k].type := by
  unfold bytesAt sizes
  rw [List.getElem?_eq_getElem (by simpa using hk)]
  simp

theorem valueAt_succ (C : Config) (k : Nat) : valueAt C (k + 1) = valueAt C k + bytesAt C k := by
  unfold valueAt bytesAt
  by_cases h : k < (sizes C).length
  · rw [List.take_succ_eq_append_getElem h, List.sum_append, List.getElem?_eq_getElem h]
    simp [Nat.add_assoc]
  · rw [List.getElem?_eq_none (by omega), List.take_of_length_le (by omega), List.take_of_length_le (by omega)]
    rfl

theorem valueAt_mono (C : Config) : ∀ (d k : Nat), valueAt C k ≤ valueAt C (k + d)
  | 0, _ => Nat.le_refl _
  | d + 1, k => by
    have := valueAt_mono C d k
    have h2 := valueAt_succ C (k + d)
    have : valueAt C (k + (d + 1)) = valueAt C (k + d + 1) := rfl
    omega

theorem valueAt_all (C : Config) : valueAt C C.objs.length = 0x5FE + (sizes C).sum := by
  unfold valueAt
  rw [List.take_of_length_le (by simp [sizes])]

theorem valueAt_before (C : Config) {i j : Nat} (h : i < j) : valueAt C i + bytesAt C i ≤ valueAt C j := by
  have := valueAt_mono C (j - (i + 1)) (i + 1)
  rw [show i + 1 + (j - (i + 1)) = j by omega] at this
  rw [valueAt_succ] at this
  exact this

theorem value_apart {C : Config} {i j a : Nat} (hi : inValue C i a) (hj : inValue C j a) : i = j := by
  unfold inValue at hi hj
  rcases Nat.lt_trichotomy i j with h | h | h
  · have := valueAt_before C h; omega
  · exact h
  · have := valueAt_before C h; omega

theorem valueAt_ram {C : Config} (V : Valid C) {k : Nat} (hk : k < C.objs.length) :
    0x5FE ≤ valueAt C k ∧ valueAt C k + bytesAt C k ≤ 0x900 ∧ 1 ≤ bytesAt C k := by
  have h1 := valueAt_before C hk
  rw [valueAt_all] at h1
  have h2 := V.values
  refine ⟨by unfold valueAt; omega, by omega, ?_⟩
  rw [bytesAt_eq hk]
  exact bytesOf_pos (V.types _ (List.getElem_mem hk))

theorem value_congr {m m' : Mem} {C : Config} {k : Nat} (h : ∀ a, inValue C k a → m' a = m a) : value m' C k = value m C k := by
  unfold value
  apply List.map_congr_left
  intro j hj
  rw [List.mem_range] at hj
  exact h _ ⟨by omega, by omega⟩

theorem value_block (m : Mem) (C : Config) (k : Nat) : value m C k = block m (valueAt C k) (bytesAt C k) := rfl

/-! ## Table accesses -/

section
variable {m : Mem} {C : Config} (H : Configured m C)
include H

theorem Configured.comm : At m C.commAt (commImage C) := H.tables (C.commAt, commImage C) (by simp [image])
theorem Configured.addr : At m C.addrAt (addrImage C) := H.tables (C.addrAt, addrImage C) (by simp [image])
theorem Configured.assocT : At m C.assocAt (assocImage C) := H.tables (C.assocAt, assocImage C) (by simp [image])

theorem Configured.commIn : 0x3300 ≤ C.commAt ∧ C.commAt + (2 + C.objs.length * 2) ≤ 0x3F00 := by
  have := H.valid.tables (C.commAt, commImage C) (by simp [image])
  unfold commImage at this
  rw [List.length_append, flatMap_length _ 2 (fun _ => rfl)] at this
  exact this
theorem Configured.addrIn : 0x3300 ≤ C.addrAt ∧ C.addrAt + (2 + C.groups.length * 2) ≤ 0x3F00 := by
  have := H.valid.tables (C.addrAt, addrImage C) (by simp [image])
  unfold addrImage at this
  rw [List.length_append, flatMap_length _ 2 (fun _ => rfl)] at this
  exact this
theorem Configured.assocIn : 0x3300 ≤ C.assocAt ∧ C.assocAt + (2 + C.assoc.length * 4) ≤ 0x3F00 := by
  have := H.valid.tables (C.assocAt, assocImage C) (by simp [image])
  unfold assocImage at this
  rw [List.length_append, flatMap_length _ 4 (fun _ => rfl)] at this
  exact this

/-- A change of the RAM keeps the configuration. -/
theorem Configured.frame {m' : Mem} (h : ∀ a, 0x3300 ≤ a → m' a = m a) : Configured m' C := by
  refine ⟨H.valid, fun t ht i hi => ?_⟩
  have := H.valid.tables t ht
  rw [h _ (by omega)]
  exact H.tables t ht i hi

theorem configTable_eq : objectConfigTable m = some C.commAt := by
  unfold objectConfigTable
  have h := H.tables (0x367C, le16 C.commAt) (by simp [image])
  have hi := H.commIn
  rw [eepWord_eq (B := dev false) (off := 0x37C) h (by omega)]
  exact eep_ptr hi.1 (by omega) _

theorem addrTable_eq : addrTable m = some C.addrAt := by
  unfold addrTable
  have h := H.tables (0x3321, le16 C.addrAt) (by simp [image])
  have hi := H.addrIn
  rw [eepWord_eq (B := dev false) (off := 0x21) h (by omega)]
  exact eep_ptr hi.1 (by omega) _

theorem assocTable_eq : assocTable m = some C.assocAt := by
  unfold assocTable
  have h := H.tables (0x3323, le16 C.assocAt) (by simp [image])
  have hi := H.assocIn
  rw [eepWord_eq (B := dev false) (off := 0x23) h (by omega)]
  exact eep_ptr hi.1 (by omega) _

theorem entry_eq (k : Nat) (hk : k < C.objs.length) :
    m (C.commAt + 2 + k * 2) = C.objs[k].config ∧ m (C.commAt + 2 + k * 2 + 1) = b8 C.objs[k].type := by
  have h := H.comm
  have a := at_entry (hdr := be16 C.objs.length) 2 h (fun _ => rfl) k 0 hk (by omega) rfl
  have b := at_entry (hdr := be16 C.objs.length) 2 h (fun _ => rfl) k 1 hk (by omega) rfl
  exact ⟨a, b⟩

theorem objectConfig_eq (k : Nat) (hk : k < C.objs.length) : objectConfig m (k + 1) = C.objs[k].config := by
  unfold objectConfig objectEntry
  rw [configTable_eq H]
  have := (entry_eq H k hk).1
  rw [show C.commAt + 2 + k * 2 = C.commAt + (k + 1) * 2 by omega] at this
  exact this

theorem objectType_eq (k : Nat) (hk : k < C.objs.length) : objectType m (k + 1) = C.objs[k].type := by
  unfold objectType objectEntry
  rw [configTable_eq H]
  have := (entry_eq H k hk).2
  rw [show C.commAt + 2 + k * 2 = C.commAt + (k + 1) * 2 by omega] at this
  simp only [Option.getD_some]
  rw [this]
  exact toNat_b8 (H.valid.types _ (List.getElem_mem hk))

theorem objectSize_eq (k : Nat) (hk : k < C.objs.length) : objectSize m (k + 1) = bytesAt C k := by
  unfold objectSize
  rw [objectType_eq H k hk, sizeOfType_eq (H.valid.types _ (List.getElem_mem hk)), bytesAt_eq hk]

theorem telegramObjectSize_eq (k : Nat) (hk : k < C.objs.length) :
    telegramObjectSize m (k + 1) = if C.objs[k].type < 6 then 0 else bytesAt C k := by
  unfold telegramObjectSize
  rw [objectType_eq H k hk, objectSize_eq H k hk]

theorem valueLoop_eq : ∀ (n k : Nat), k + n ≤ C.objs.length → valueLoop m n (k + 1) (valueAt C k) = valueAt C (k + n)
  | 0, _, _ => rfl
  | n + 1, k, h => by
    unfold valueLoop
    rw [objectSize_eq H k (by omega), ← valueAt_succ, valueLoop_eq n (k + 1) (by omega)]
    congr 1; omega

theorem valuePtr_eq (k : Nat) (hk : k < C.objs.length) : objectValuePtr m (k + 1) = some (valueAt C k) := by
  unfold objectValuePtr
  have h := valueLoop_eq H k 0 (by omega)
  rw [Nat.zero_add, Nat.zero_add] at h
  have e : valueLoop m (k + 1 - 1) 1 ((dev false).ramStart + 2) = valueAt C k := h
  rw [e]
  have hr := valueAt_ram H.valid hk
  exact ram_ptr (by omega) (by omega) _

theorem objectCount_eq : objectCount m = C.objs.length / 256 := by
  unfold objectCount
  rw [configTable_eq H]
  have h0 := H.comm.get (i := 0) rfl
  rw [Nat.add_zero] at h0
  have hi := H.commIn
  simp only [Option.getD_some, h0, BitVec.toNat_ofNat]
  omega

theorem flagsTable_none {le : Bool} (N : NoFlags le C) (h0 : 0 < C.objs.length) : objectFlagsTable le m = none := by
  unfold objectFlagsTable
  rw [configTable_eq H]
  simp only [Option.getD_some]
  have h1 := H.comm.get (i := 1) rfl
  have h2 := (entry_eq H 0 h0).1
  rw [Nat.zero_mul, Nat.add_zero] at h2
  rw [h1, h2]
  have key : ∀ a b : Byte, (makeWord a b).toNat = a.toNat * 256 + b.toNat := by
    intro a b
    have ha := a.isLt
    have hb := b.isLt
    have := makeWord_be (a.toNat * 256 + b.toNat) (by omega)
    rw [show BitVec.ofNat 8 ((a.toNat * 256 + b.toNat) / 256) = a by apply BitVec.eq_of_toNat_eq; simp; omega,
      show BitVec.ofNat 8 (a.toNat * 256 + b.toNat) = b by apply BitVec.eq_of_toNat_eq; simp; omega] at this
    exact this
  have e : (if le = true then (makeWord C.objs[0].config (BitVec.ofNat 8 C.objs.length)).toNat
      else (makeWord (BitVec.ofNat 8 C.objs.length) C.objs[0].config).toNat) = flagsWord le C := by
    unfold flagsWord
    rw [key, key, List.head?_eq_getElem?, List.getElem?_eq_getElem h0]
    simp
  rw [e]
  exact ptr_none N.1 N.2 _

theorem addFlags_none {le : Bool} (N : NoFlags le C) (h0 : 0 < C.objs.length) (i : Nat) (f : Byte) :
    addObjectFlags le m i f = m := by
  unfold addObjectFlags
  rw [flagsTable_none H N h0]

theorem setFlags_none {le : Bool} (N : NoFlags le C) (h0 : 0 < C.objs.length) (i : Nat) (f : Byte) :
    setObjectFlags le m i f = m := by
  unfold setObjectFlags
  rw [flagsTable_none H N h0]

theorem objectRead_spec (k : Nat) (hk : k < C.objs.length) :
    objectRead m (k + 1) = BitVec.ofNat 32 (number (value m C k)) := by
  unfold objectRead
  rw [valuePtr_eq H k hk, objectSize_eq H k hk, value_block]
  simp only [Option.getD_some]
  have hb := (valueAt_ram H.valid hk).2.2
  obtain ⟨n, hn⟩ : ∃ n, bytesAt C k = n + 1 := ⟨bytesAt C k - 1, by omega⟩
  rw [hn, show valueAt C k + (n + 1) - 1 = valueAt C k + n by omega, Nat.add_sub_cancel, readLoop_spec, block_succ_last,
    number_append, block_length]
  congr 1

/-! ## Group address and association -/

theorem addrNum_eq : (m C.addrAt).toNat * 256 + (m (C.addrAt + 1)).toNat = C.groups.length := by
  have h0 := H.addr.get (i := 0) rfl
  have h1 := H.addr.get (i := 1) rfl
  rw [Nat.add_zero] at h0
  have hi := H.addrIn
  rw [h0, h1, BitVec.toNat_ofNat, BitVec.toNat_ofNat]
  omega

theorem group_match (addr : Word) (k : Nat) (hk : k < C.groups.length) :
    ((m (C.addrAt + 2 + k * 2)).toNat = addr.toNat / 256 ∧ (m (C.addrAt + 2 + k * 2 + 1)).toNat = addr.toNat % 256) ↔
    C.groups[k] = addr := by
  have h := H.addr
  have g1 := at_entry (hdr := be16 C.groups.length) 2 h (fun _ => rfl) k 0 hk (by omega) rfl
  have g2 := at_entry (hdr := be16 C.groups.length) 2 h (fun _ => rfl) k 1 hk (by omega) rfl
  have g1' : m (C.addrAt + 2 + k * 2) = BitVec.ofNat 8 (C.groups[k].toNat / 256) := g1
  have g2' : m (C.addrAt + 2 + k * 2 + 1) = BitVec.ofNat 8 C.groups[k].toNat := g2
  rw [g1', g2', BitVec.toNat_ofNat, BitVec.toNat_ofNat]
  have h1 := C.groups[k].isLt
  have h2 := addr.isLt
  constructor
  · rintro ⟨e1, e2⟩
    apply BitVec.eq_of_toNat_eq
    omega
  · intro e; rw [e]; omega

/-- The index returned by the lookup is the position of the address. -/
theorem indexOfAddr_some {addr : Word} {r : Nat} (h : indexOfAddr m addr = some r) :
    1 ≤ r ∧ C.groups[r - 1]? = some addr := by
  unfold indexOfAddr at h
  rw [addrTable_eq H] at h
  simp only [indexOfAddrSystemB] at h
  rw [addrNum_eq H] at h
  obtain ⟨h1, h2, h3, h4, h5⟩ := (indexLoop_spec m addr _ _ _).1 r h
  refine ⟨h1, ?_⟩
  rw [List.getElem?_eq_getElem (by omega)]
  congr 1
  exact (group_match H addr (r - 1) (by omega)).mp ⟨h3, h4⟩

theorem indexOfAddr_none {addr : Word} (h : indexOfAddr m addr = none) : addr ∉ C.groups := by
  unfold indexOfAddr at h
  rw [addrTable_eq H] at h
  simp only [indexOfAddrSystemB] at h
  rw [addrNum_eq H] at h
  have h5 := (indexLoop_spec m addr _ _ _).2 h
  intro hm
  obtain ⟨k, hk, e⟩ := List.getElem_of_mem hm
  exact h5 k (by omega) ((group_match H addr k hk).mpr e)

theorem linked_index {addr : Word} {r : Nat} (h : indexOfAddr m addr = some r) (p : Nat × Nat) (hp : p ∈ C.assoc) :
    r = p.1 ↔ C.groups[p.1 - 1]? = some addr := by
  obtain ⟨h1, h2⟩ := indexOfAddr_some H h
  obtain ⟨v1, v2, _⟩ := H.valid.assocs p hp
  constructor
  · intro e
    subst e
    exact h2
  · intro e
    have := nodup_unique H.valid.distinct h2 e; omega

theorem not_linked {addr : Word} (h : indexOfAddr m addr = none) (i : Nat) : ¬ Linked C addr i := by
  rintro ⟨k, _, hk⟩
  exact indexOfAddr_none H h (List.mem_of_getElem? hk)

theorem assocCount_eq : (makeWord (m C.assocAt) (m (C.assocAt + 1))).toNat = C.assoc.length := by
  have h0 := H.assocT.get (i := 0) rfl
  have h1 := H.assocT.get (i := 1) rfl
  rw [Nat.add_zero] at h0
  have hi := H.assocIn
  rw [h0, h1]
  exact makeWord_be _ (by omega)

theorem assocEntry_eq (k : Nat) (hk : k < C.assoc.length) :
    (makeWord (m (C.assocAt + 2 + k * 4)) (m (C.assocAt + 2 + k * 4 + 1))).toNat = C.assoc[k].1 ∧
    (makeWord (m (C.assocAt + 2 + k * 4 + 2)) (m (C.assocAt + 2 + k * 4 + 3))).toNat = C.assoc[k].2 := by
  have h := H.assocT
  have hi := H.addrIn
  have hc := H.commIn
  obtain ⟨v1, v2, v3, v4⟩ := H.valid.assocs _ (List.getElem_mem hk)
  have a0 : m (C.assocAt + 2 + k * 4) = BitVec.ofNat 8 (C.assoc[k].1 / 256) :=
    at_entry (hdr := be16 C.assoc.length) 4 h (fun _ => rfl) k 0 hk (by omega) rfl
  have a1 : m (C.assocAt + 2 + k * 4 + 1) = BitVec.ofNat 8 C.assoc[k].1 :=
    at_entry (hdr := be16 C.assoc.length) 4 h (fun _ => rfl) k 1 hk (by omega) rfl
  have a2 : m (C.assocAt + 2 + k * 4 + 2) = BitVec.ofNat 8 (C.assoc[k].2 / 256) :=
    at_entry (hdr := be16 C.assoc.length) 4 h (fun _ => rfl) k 2 hk (by omega) rfl
  have a3 : m (C.assocAt + 2 + k * 4 + 3) = BitVec.ofNat 8 C.assoc[k].2 :=
    at_entry (hdr := be16 C.assoc.length) 4 h (fun _ => rfl) k 3 hk (by omega) rfl
  rw [a0, a1, a2, a3]
  exact ⟨makeWord_be _ (by omega), makeWord_be _ (by omega)⟩

end

/-! ## Writing one object -/

theorem processGroupWriteTelegram_takes {le : Bool} {m : Mem} {C : Config} (H : Configured m C) (N : NoFlags le C)
    (k : Nat) (hk : k < C.objs.length) (tel : Tel) :
    Takes C (· = k + 1) tel m (processGroupWriteTelegram le m (k + 1) tel) := by
  have hb := (valueAt_ram H.valid hk)
  unfold processGroupWriteTelegram
  rw [valuePtr_eq H k hk, telegramObjectSize_eq H k hk]
  simp only
  obtain ⟨m1, hm1⟩ : ∃ m1 : Mem, (if (if C.objs[k].type < 6 then 0 else bytesAt C k) > 0 then
      revCopyIn m tel 8 (valueAt C k) (if C.objs[k].type < 6 then 0 else bytesAt C k)
      else poke m (valueAt C k) (tel 7 &&& 0x3f#8)) = m1 := ⟨_, rfl⟩
  rw [hm1]
  have hother : ∀ a, ¬ inValue C k a → m1 a = m a := by
    intro a ha
    unfold inValue at ha
    rw [← hm1]
    by_cases ht : C.objs[k].type < 6
    · simp only [if_pos ht]
      rw [if_neg (by omega)]
      exact poke_other (by omega)
    · simp only [if_neg ht]
      rw [if_pos (by omega), revCopyIn_spec, if_neg (by omega)]
  have H1 : Configured m1 C := H.frame fun a ha => hother a (fun h => by unfold inValue at h; omega)
  rw [addFlags_none H1 N (by omega)]
  refine ⟨?_, ?_, ?_⟩
  · intro j hj e
    obtain rfl : j = k := by omega
    unfold value payload
    rw [← hm1]
    by_cases ht : C.objs[j].type < 6
    · have h1 : bytesAt C j = 1 := by rw [bytesAt_eq hj]; exact bytesOf_small ht
      simp only [if_pos ht]
      rw [if_neg (by omega), h1]
      simp [poke]
    · simp only [if_neg ht]
      rw [if_pos (by omega), reverse_map_range, ← bytesAt_eq hj]
      apply List.map_congr_left
      intro i hi
      rw [List.mem_range] at hi
      rw [revCopyIn_spec, if_pos (by omega)]
      congr 1; omega
  · intro j hj e
    exact value_congr fun a ha => hother a (fun h => e (by rw [value_apart ha h]))
  · intro a ha
    exact hother a (ha k hk rfl)

theorem Takes.configured {C : Config} {S : Nat → Prop} {tel : Tel} {m m' : Mem} (H : Configured m C)
    (h : Takes C S tel m m') : Configured m' C := H.frame fun a ha => h.keep a fun k hk _ hv => by
  have := valueAt_ram H.valid hk
  unfold inValue at hv
  omega

theorem Takes.refl {C : Config} {S : Nat → Prop} {tel : Tel} {m : Mem} (hS : ∀ k < C.objs.length, ¬ S (k + 1)) : Takes C S tel m m :=
  ⟨fun k hk h => absurd h (hS k hk), fun _ _ _ => rfl, fun _ _ => rfl⟩

theorem Takes.trans {C : Config} {S T : Nat → Prop} {tel : Tel} {m m' m'' : Mem}
    (h : Takes C S tel m m') (k : Takes C T tel m' m'') : Takes C (fun i => S i ∨ T i) tel m m'' := by
  refine ⟨?_, ?_, ?_⟩
  · intro i hi e
    by_cases ht : T (i + 1)
    · exact k.value i hi ht
    · rw [k.keepValue i hi ht]; exact h.value i hi (e.resolve_right ht)
  · intro i hi e
    rw [k.keepValue i hi (fun c => e (Or.inr c)), h.keepValue i hi (fun c => e (Or.inl c))]
  · intro a ha
    rw [k.keep a (fun i hi c => ha i hi (Or.inr c)), h.keep a (fun i hi c => ha i hi (Or.inl c))]

theorem Takes.congr {C : Config} {S T : Nat → Prop} {tel : Tel} {m m' : Mem} (h : Takes C S tel m m')
    (e : ∀ i, i < C.objs.length → (S (i + 1) ↔ T (i + 1))) : Takes C T tel m m' :=
  ⟨fun i hi t => h.value i hi ((e i hi).mpr t), fun i hi t => h.keepValue i hi (fun c => t ((e i hi).mp c)),
   fun a ha => h.keep a (fun i hi c => ha i hi ((e i hi).mp c))⟩

/-! ## Write to all associated objects -/

/-- The object `i` exists and is writable. -/
def WritableNo (C : Config) (i : Nat) : Prop := ∃ j, ∃ h : j < C.objs.length, i = j + 1 ∧ Writable C.objs[j]

/-- Objects written by the association entries from `k` on. -/
def hitFrom (C : Config) (gapos : Nat) (trg : Option Nat) (k : Nat) (i : Nat) : Prop :=
  ∃ j, ∃ h : j < C.assoc.length, k ≤ j ∧ C.assoc[j] = (gapos, i) ∧ some i ≠ trg ∧ WritableNo C i

theorem writeAssocLoop_takes {le : Bool} {C : Config} (N : NoFlags le C) (tel : Tel) (trg : Option Nat) (gapos : Nat) :
    ∀ (n : Nat) (m : Mem), Configured m C → n ≤ C.assoc.length →
    Takes C (hitFrom C gapos trg (C.assoc.length - n)) tel m
      (writeAssocLoop le tel trg gapos n (C.assocAt + 2 + (C.assoc.length - n) * 4) m)
  | 0, m, _, _ => by
    unfold writeAssocLoop
    apply Takes.refl
    rintro i _ ⟨j, hj, hk, _⟩
    omega
  | n + 1, m, H, hn => by
    unfold writeAssocLoop
    have hlt : C.assoc.length - (n + 1) < C.assoc.length := by omega
    obtain ⟨k, hk⟩ : ∃ k, C.assoc.length - (n + 1) = k := ⟨_, rfl⟩
    have hk1 : C.assoc.length - n = k + 1 := by omega
    have ep : C.assocAt + 2 + k * 4 + 4 = C.assocAt + 2 + (C.assoc.length - n) * 4 := by omega
    rw [hk] at hlt ⊢
    obtain ⟨e1, e2⟩ := assocEntry_eq H k hlt
    rw [e1, e2]
    obtain ⟨_, _, v3, v4⟩ := H.valid.assocs _ (List.getElem_mem hlt)
    obtain ⟨o, ho⟩ : ∃ o, C.assoc[k].2 = o + 1 := ⟨C.assoc[k].2 - 1, by omega⟩
    have hob : o < C.objs.length := by omega
    simp only
    rw [ep, ho]
    -- entries that do not hit
    have skip : ∀ {m' : Mem}, ¬ (gapos = C.assoc[k].1 ∧ some C.assoc[k].2 ≠ trg ∧ Writable C.objs[o]) →
        Takes C (hitFrom C gapos trg (C.assoc.length - n)) tel m m' → Takes C (hitFrom C gapos trg k) tel m m' := by
      intro m' hno h
      apply h.congr
      intro i hi
      constructor
      · rintro ⟨j, hj, hjk, r⟩; exact ⟨j, hj, by omega, r⟩
      · rintro ⟨j, hj, hjk, hp, ht, hw⟩
        refine ⟨j, hj, ?_, hp, ht, hw⟩
        by_cases e : j = k
        · subst e
          exfalso
          apply hno
          obtain ⟨q, hq, eq, hw⟩ := hw
          have : q = o := by rw [hp] at ho; simp only at ho; omega
          subst this
          refine ⟨by rw [hp], by rw [hp]; exact ht, hw⟩
        · omega
    by_cases hg : gapos = C.assoc[k].1
    · rw [if_pos hg]
      by_cases ht : some (o + 1) = trg
      · rw [if_pos ht]
        exact skip (fun c => c.2.1 (by rw [ho]; exact ht)) (writeAssocLoop_takes N tel trg gapos n m H (by omega))
      · rw [if_neg ht, objectConfig_eq H _ hob]
        by_cases hw : Writable C.objs[o]
        · rw [if_pos ((and14 _).mpr hw)]
          have T1 := processGroupWriteTelegram_takes H N _ hob tel
          have T2 := writeAssocLoop_takes N tel trg gapos n _ (T1.configured H) (by omega)
          apply (T1.trans T2).congr
          intro i hi
          constructor
          · rintro (e | ⟨j, hj, hjk, r⟩)
            · refine ⟨k, hlt, Nat.le_refl _, ?_, ?_, ?_⟩
              · rw [e, hg, ← ho]
              · rw [e]; exact ht
              · exact ⟨o, hob, e, hw⟩
            · exact ⟨j, hj, by omega, r⟩
          · rintro ⟨j, hj, hjk, hp, ht', hw'⟩
            by_cases e : j = k
            · subst e; left; rw [← ho, hp]
            · right; exact ⟨j, hj, by omega, hp, ht', hw'⟩
        · rw [if_neg (fun c => hw ((and14 _).mp c))]
          exact skip (fun c => hw c.2.2) (writeAssocLoop_takes N tel trg gapos n m H (by omega))
    · rw [if_neg hg]
      exact skip (fun c => hg c.1) (writeAssocLoop_takes N tel trg gapos n m H (by omega))

theorem processGroupWrite_takes {le : Bool} {m : Mem} {C : Config} (H : Configured m C) (N : NoFlags le C) (addr : Word)
    (tel : Tel) (trg : Option Nat) :
    Takes C (fun i => Linked C addr i ∧ some i ≠ trg ∧ WritableNo C i) tel m (processGroupWrite le m addr tel trg) := by
  unfold processGroupWrite
  split
  · rename_i h
    apply Takes.refl
    rintro i _ ⟨hl, _⟩
    exact not_linked H h _ hl
  · rename_i r h
    rw [assocTable_eq H]
    simp only [Option.getD_some]
    rw [assocCount_eq H]
    have T := writeAssocLoop_takes N tel trg r C.assoc.length m H (Nat.le_refl _)
    simp only [Nat.sub_self, Nat.zero_mul, Nat.add_zero] at T
    apply T.congr
    intro i hi
    constructor
    · rintro ⟨j, hj, _, hp, ht, hw⟩
      have hm := List.getElem_mem hj
      rw [hp] at hm
      exact ⟨⟨r, hm, (linked_index H h (r, i + 1) hm).mp rfl⟩, ht, hw⟩
    · rintro ⟨⟨k, hm, hg⟩, ht, hw⟩
      have e := (linked_index H h (k, i + 1) hm).mpr hg
      obtain ⟨j, hj, hp⟩ := List.getElem_of_mem hm
      exact ⟨j, hj, Nat.zero_le _, by rw [hp, e], ht, hw⟩

/-! ## Answers -/

/-- The bytes of the telegram built by `sendGroupWriteTelegram`, for values of at most 14 bytes. -/
theorem groupWriteTel_bytes {m : Mem} {C : Config} (H : Configured m C) (k : Nat) (hk : k < C.objs.length)
    (h14 : bytesOf C.objs[k].type ≤ 14) (buf : Tel) (g : Word) (resp : Bool) :
    let t := groupWriteTel m buf (k + 1) g resp
    let cmd : Byte := if resp then 0x40#8 else 0x80#8
    t 0 = 0xBC#8 ∧ t 3 = BitVec.ofNat 8 (g.toNat / 256) ∧ t 4 = BitVec.ofNat 8 g.toNat ∧ t 6 = 0#8 ∧
    (C.objs[k].type < 6 → t 5 = 0xe1#8 ∧ t 7 = cmd ||| m (valueAt C k)) ∧
    (¬ C.objs[k].type < 6 → t 5 = 0xe0#8 ||| b8 (bytesOf C.objs[k].type + 1) ∧ t 7 = cmd ∧
      ∀ j, j < bytesOf C.objs[k].type → t (8 + j) = m (valueAt C k + (bytesOf C.objs[k].type - 1 - j))) := by
  have hcl : controlLow = 0xBC#8 := by decide
  have hb := bytesOf_pos (H.valid.types _ (List.getElem_mem hk))
  by_cases ht : C.objs[k].type < 6
  · have e : telegramObjectSize m (k + 1) = 0 := by rw [telegramObjectSize_eq H k hk, if_pos ht]
    simp only [groupWriteTel, valuePtr_eq H k hk, e, hcl]
    refine ⟨rfl, rfl, rfl, rfl, fun _ => ⟨rfl, rfl⟩, fun h => absurd ht h⟩
  · have e : telegramObjectSize m (k + 1) = bytesOf C.objs[k].type := by
      rw [telegramObjectSize_eq H k hk, if_neg ht, bytesAt_eq hk]
    have ne : ¬ bytesOf C.objs[k].type = 0 := by omega
    have hl : 0xe0#8 ||| (BitVec.ofNat 8 (bytesOf C.objs[k].type + 1) &&& 0x0f#8) = 0xe0#8 ||| b8 (bytesOf C.objs[k].type + 1) := by
      have := (lenByte _ h14).1
      rw [← this]; congr 2
    simp only [groupWriteTel, valuePtr_eq H k hk, e, hcl, ne, ne_eq, not_false_eq_true, if_true, Option.getD_some, setByte,
      revCopyOut_spec]
    refine ⟨?_, ?_, ?_, ?_, fun h => absurd h ht, fun _ => ⟨?_, ?_, ?_⟩⟩
    · simp
    · simp
    · simp
    · simp
    · simp [hl]
    · simp
    · intro j hj
      rw [if_neg (by omega), if_neg (by omega), if_pos (by omega)]
      congr 2; omega

theorem groupWriteTel_frame {m : Mem} {C : Config} (H : Configured m C) (k : Nat) (hk : k < C.objs.length)
    (h14 : bytesOf C.objs[k].type ≤ 14) (buf : Tel) (g : Word) (resp : Bool) :
    IsFrame (prepared (groupWriteTel m buf (k + 1) g resp))
      (valueBody g C.objs[k] (value m C k) (if resp then 0x40#8 else 0x80#8)) := by
  obtain ⟨h0, h3, h4, h6, hs, hl⟩ := groupWriteTel_bytes H k hk h14 buf g resp
  generalize groupWriteTel m buf (k + 1) g resp = t at *
  by_cases ht : C.objs[k].type < 6
  · obtain ⟨h5, h7⟩ := hs ht
    have hlen : telegramSize t = 8 + 0 := by unfold telegramSize; rw [h5]; decide
    rw [prepared_len hlen]
    unfold valueBody value be16
    rw [if_pos ht, bytesAt_eq hk, bytesOf_small ht]
    refine ⟨by simp [h0], rfl, ?_⟩
    simp [h3, h4, h5, h6, h7]
  · obtain ⟨h5, h7, h8⟩ := hl ht
    have hlen : telegramSize t = 8 + bytesOf C.objs[k].type := by
      unfold telegramSize; rw [h5]; exact (lenByte _ h14).2
    rw [prepared_len hlen]
    unfold valueBody value be16
    rw [if_neg ht, bytesAt_eq hk, reverse_map_range]
    refine ⟨by simp [h0], by simp; omega, ?_⟩
    simp only [List.drop, List.cons_append, List.nil_append, h3, h4, h5, h6, h7]
    simp only [List.cons.injEq, true_and]
    apply List.map_congr_left
    intro j hj
    rw [List.mem_range] at hj
    exact h8 j hj

theorem answersTo_iff (C : Config) (g : Word) (p : Nat × Nat) :
    answersTo C g p = true ↔ C.groups[p.1 - 1]? = some g ∧ ∃ h : p.2 - 1 < C.objs.length, Readable C.objs[p.2 - 1] := by
  unfold answersTo Readable
  rw [Bool.and_eq_true, beq_iff_eq]
  apply and_congr Iff.rfl
  by_cases h : p.2 - 1 < C.objs.length
  · rw [List.getElem?_eq_getElem h]; simp [h]
  · rw [List.getElem?_eq_none (by omega)]; simp [h]

theorem carries_prepared (t : Tel) : Carries t (prepared t) := by
  intro k _ hk
  simp [prepared]

theorem readAssocLoop_spec {le : Bool} {C : Config} (N : NoFlags le C) (h14 : ∀ o ∈ C.objs, bytesOf o.type ≤ 14) (g : Word)
    (gapos : Nat) (hpos : ∀ p ∈ C.assoc, gapos = p.1 ↔ C.groups[p.1 - 1]? = some g) :
    ∀ (n : Nat) (s : St), Configured s.mem C → n ≤ C.assoc.length →
    Answers C g (((C.assoc.drop (C.assoc.length - n)).filter (answersTo C g)).map (·.2)) s.mem
      (readAssocLoop le g gapos n (C.assocAt + 2 + (C.assoc.length - n) * 4) s).1.mem
      (readAssocLoop le g gapos n (C.assocAt + 2 + (C.assoc.length - n) * 4) s).2
  | 0, s, _, _ => by
    rw [Nat.sub_zero, List.drop_length]
    exact Answers.nil _
  | n + 1, s, H, hn => by
    have hlt : C.assoc.length - (n + 1) < C.assoc.length := by omega
    have ih := fun s H => readAssocLoop_spec N h14 g gapos hpos n s H (by omega)
    obtain ⟨k, hk⟩ : ∃ k, C.assoc.length - (n + 1) = k := ⟨_, rfl⟩
    have hk1 : C.assoc.length - n = k + 1 := by omega
    rw [hk] at hlt ⊢
    rw [hk1] at ih
    obtain ⟨e1, e2⟩ := assocEntry_eq H k hlt
    unfold readAssocLoop
    rw [e1, e2, List.drop_eq_getElem_cons hlt]
    have ep : C.assocAt + 2 + k * 4 + 4 = C.assocAt + 2 + (k + 1) * 4 := by omega
    rw [ep]
    have hm := List.getElem_mem hlt
    obtain ⟨v1, v2, v3, v4⟩ := H.valid.assocs _ hm
    obtain ⟨o, ho⟩ : ∃ o, C.assoc[k].2 = o + 1 := ⟨C.assoc[k].2 - 1, by omega⟩
    have hob : o < C.objs.length := by omega
    have hob' : C.assoc[k].2 - 1 = o := by omega
    by_cases hg : gapos = C.assoc[k].1
    · rw [if_pos hg]
      simp only
      rw [ho, objectConfig_eq H _ hob]
      by_cases hr : Readable C.objs[o]
      · rw [if_pos ((and0c _).mpr hr), List.filter_cons_of_pos (by
          rw [answersTo_iff]; refine ⟨(hpos _ hm).mp hg, by omega, ?_⟩
          simp only [hob']; exact hr), List.map_cons, ho]
        have T := processGroupWrite_takes H N g (groupWriteTel s.mem s.buf (o + 1) g true) (some (o + 1))
        refine Answers.cons (tel := groupWriteTel s.mem s.buf (o + 1) g true) hob
          (groupWriteTel_frame H _ hob (h14 _ (List.getElem_mem hob)) s.buf g true) (carries_prepared _)
          (m1 := (sendGroupWrite le s (o + 1) g true).1.mem) ?_ ?_
        · apply T.congr
          intro i hi
          constructor
          · rintro ⟨h1, h2, h3⟩; exact ⟨h1, fun c => h2 (by rw [c]), h3⟩
          · rintro ⟨h1, h2, h3⟩; exact ⟨h1, fun c => h2 (Option.some.inj c), h3⟩
        · exact ih (sendGroupWrite le s (o + 1) g true).1 (T.configured H)
      · rw [if_neg (fun c => hr ((and0c _).mp c)), List.filter_cons_of_neg (by
          rw [answersTo_iff]; rintro ⟨_, _, h⟩; simp only [hob'] at h; exact hr h)]
        exact ih s H
    · rw [if_neg hg, List.filter_cons_of_neg (by
        rw [answersTo_iff]; rintro ⟨h, _⟩; exact hg ((hpos _ hm).mpr h))]
      exact ih s H

end Verif.Com.SysB
