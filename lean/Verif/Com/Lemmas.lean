import Verif.Com.Spec

/-!
# Auxiliary lemmas: the table accesses of the model read the configuration
-/

namespace Verif.Com

open Verif.Bytes (makeWord)

theorem At.get {m : Mem} {a : Nat} {bs : List Byte} (h : At m a bs) {i : Nat} {b : Byte} (hb : bs[i]? = some b) :
    m (a + i) = b := by
  obtain ⟨hi, rfl⟩ := List.getElem?_eq_some_iff.mp hb
  exact h i hi

theorem flatMap_get {α : Type} (f : α → List Byte) (k : Nat) (hk : ∀ x, (f x).length = k) :
    ∀ (l : List α) (i j : Nat) (hi : i < l.length), j < k → (l.flatMap f)[i * k + j]? = (f l[i])[j]?
  | [], i, _, hi, _ => by simp at hi
  | x :: l, 0, j, _, hj => by
    simp only [List.flatMap_cons, Nat.zero_mul, Nat.zero_add, List.getElem_cons_zero]
    rw [List.getElem?_append_left (by rw [hk]; exact hj)]
  | x :: l, i + 1, j, hi, hj => by
    simp only [List.flatMap_cons, List.getElem_cons_succ]
    rw [List.getElem?_append_right (by rw [hk, Nat.succ_mul]; omega), hk]
    have : (i + 1) * k + j - k = i * k + j := by rw [Nat.succ_mul]; omega
    rw [this]
    exact flatMap_get f k hk l i j (by simpa using hi) hj

theorem flatMap_length {α : Type} (f : α → List Byte) (k : Nat) (hk : ∀ x, (f x).length = k) (l : List α) :
    (l.flatMap f).length = l.length * k := by
  induction l with
  | nil => simp
  | cons x l ih => simp [List.flatMap_cons, hk, ih, Nat.succ_mul, Nat.add_comm]

theorem at_entry {α : Type} {m : Mem} {a : Nat} {hdr : List Byte} {l : List α} {f : α → List Byte} (k : Nat)
    (h : At m a (hdr ++ l.flatMap f)) (hk : ∀ x, (f x).length = k) (i j : Nat) (hi : i < l.length) (hj : j < k)
    {b : Byte} (hb : (f l[i])[j]? = some b) : m (a + hdr.length + i * k + j) = b := by
  have : (hdr ++ l.flatMap f)[hdr.length + (i * k + j)]? = some b := by
    rw [List.getElem?_append_right (by omega)]
    have : hdr.length + (i * k + j) - hdr.length = i * k + j := by omega
    rw [this, flatMap_get f k hk l i j hi hj, hb]
  have := h.get this
  rw [show a + hdr.length + i * k + j = a + (hdr.length + (i * k + j)) by omega]
  exact this

theorem toNat_b8 {n : Nat} (h : n < 256) : (b8 n).toNat = n := by simp [b8]; omega

theorem makeWord_be (n : Nat) (h : n < 65536) :
    (makeWord (BitVec.ofNat 8 (n / 256)) (BitVec.ofNat 8 n)).toNat = n := by
  have key : ∀ a b : Byte, (makeWord a b).toNat = a.toNat * 256 + b.toNat := by
    intro a b
    unfold makeWord
    rw [BitVec.toNat_setWidth, BitVec.toNat_or, BitVec.toNat_shiftLeft, BitVec.toNat_setWidth, BitVec.toNat_setWidth]
    have ha := a.isLt; have hb := b.isLt
    rw [Nat.mod_eq_of_lt (by omega : a.toNat < 2 ^ 32), Nat.mod_eq_of_lt (by omega : b.toNat < 2 ^ 32), Nat.shiftLeft_eq,
      Nat.mod_eq_of_lt (by omega : a.toNat * 2 ^ 8 < 2 ^ 32), Nat.mul_comm, ← Nat.two_pow_add_eq_or_of_lt (by omega)]
    omega
  rw [key]; simp only [BitVec.toNat_ofNat]; omega

theorem makeWord_word (w : Word) : makeWord (BitVec.ofNat 8 (w.toNat / 256)) (BitVec.ofNat 8 w.toNat) = w := by
  apply BitVec.eq_of_toNat_eq
  exact makeWord_be w.toNat w.isLt

theorem userMemoryPtr_seg {B : Bcu} {a len : Nat} (h : inSegment B a len) (hl : 1 ≤ len) : userMemoryPtr B a = some a := by
  unfold userMemoryPtr inRange
  rcases h with ⟨h1, h2⟩ | ⟨h1, h2⟩
  · have : (decide (a ≥ B.ramStart) && decide (a ≤ B.ramStart + B.ramSize - 1)) = true := by simp; omega
    rw [this]; split <;> rfl
  · have : (decide (a ≥ B.eepStart) && decide (a ≤ B.eepStart + B.eepSize - 1)) = true := by simp; omega
    rw [this]; rfl

theorem bytesOf_pos (t : Nat) : 1 ≤ bytesOf t := by
  unfold bytesOf; split <;> omega

theorem bytesOf_le (t : Nat) : bytesOf t ≤ 14 := by
  unfold bytesOf; split <;> omega

theorem sizeOfType_eq {t : Nat} (h : t ≤ 15) : sizeOfType t = bytesOf t := by
  have : ∀ t ≤ 15, sizeOfType t = bytesOf t := by decide
  exact this t h

/-! ## Table accesses -/

section
variable {B : Bcu} {m : Mem} {C : Config} (H : Configured B m C)
include H

theorem Configured.comm : At m C.commAt (commImage B C) := H.tables (C.commAt, commImage B C) (by simp [image])
theorem Configured.addr : At m C.addrAt (addrImage C) := H.tables (C.addrAt, addrImage C) (by simp [image])
theorem Configured.assocT : At m C.assocAt (assocImage C) := H.tables (C.assocAt, assocImage C) (by simp [image])

omit H in
theorem commImage_pos (B : Bcu) (C : Config) : 1 ≤ (commImage B C).length := by
  unfold commImage; split <;> simp <;> omega

theorem Configured.commSeg : userMemoryPtr B C.commAt = some C.commAt := by
  have := H.valid.tables (C.commAt, commImage B C) (by simp [image])
  exact userMemoryPtr_seg (len := (commImage B C).length) (Or.inr this) (commImage_pos B C)

theorem Configured.addrSeg : userMemoryPtr B C.addrAt = some C.addrAt := by
  have := H.valid.tables (C.addrAt, addrImage C) (by simp [image])
  exact userMemoryPtr_seg (len := (addrImage C).length) (Or.inr this) (by simp [addrImage])

theorem Configured.assocSeg : userMemoryPtr B C.assocAt = some C.assocAt := by
  have := H.valid.tables (C.assocAt, assocImage C) (by simp [image])
  exact userMemoryPtr_seg (len := (assocImage C).length) (Or.inr this) (by simp [assocImage])

theorem Configured.flagsSeg : userMemoryPtr B C.flagsAt = some C.flagsAt :=
  userMemoryPtr_seg H.valid.flags (by omega)

omit H in
theorem eepWord_eq {off a : Nat} (h : At m (B.eepStart + off) (le16 a)) (ha : a < 65536) : eepWord B m off = a := by
  unfold eepWord
  rw [h.get (i := 1) rfl]
  have := h.get (i := 0) rfl
  rw [Nat.add_zero] at this
  rw [this]
  exact makeWord_be a ha

theorem configTable_eq : objectConfigTable B m = some C.commAt := by
  unfold objectConfigTable
  have hp := H.valid.pointers
  have hseg := H.commSeg
  split
  · rename_i hk
    simp only [hk] at hp
    have h := H.tables (B.eepStart + 0x12, [b8 (C.commAt - B.eepStart)]) (by simp [image, hk])
    have h0 := At.get h (i := 0) rfl
    rw [Nat.add_zero] at h0
    simp only [h0]
    rw [toNat_b8 (by omega), if_neg (by omega), show C.commAt - B.eepStart + B.eepStart = C.commAt by omega]
    exact hseg
  · rename_i hk
    simp only [hk] at hp
    have h := H.tables (B.eepStart + 0x37C, le16 C.commAt) (by simp [image, hk])
    have ht := H.valid.tables (C.commAt, commImage B C) (by simp [image])
    rw [eepWord_eq h (by have := commImage_pos B C; simp only at ht; omega)]
    exact hseg

theorem addrTable_eq : addrTable B m = some C.addrAt := by
  unfold addrTable
  have hp := H.valid.pointers
  have hseg := H.addrSeg
  split
  · rename_i hk
    simp only [hk] at hp
    rw [hp.1]
  · rename_i hk
    simp only [hk] at hp
    have h := H.tables (B.eepStart + 0x378, le16 C.addrAt) (by simp [image, hk])
    have ht := H.valid.tables (C.addrAt, addrImage C) (by simp [image])
    rw [eepWord_eq h (by simp [addrImage] at ht; omega)]
    exact hseg

theorem assocTable_eq : assocTable B m = some C.assocAt := by
  unfold assocTable
  have hp := H.valid.pointers
  have hseg := H.assocSeg
  have ht := H.valid.tables (C.assocAt, assocImage C) (by simp [image])
  split
  · rename_i hk
    simp only [hk] at hp
    have h := H.tables (B.eepStart + 0x11, [b8 (C.assocAt - B.eepStart)]) (by simp [image, hk])
    have h0 := At.get h (i := 0) rfl
    rw [Nat.add_zero] at h0
    simp only at ht
    simp only [h0]
    rw [toNat_b8 (by omega), show B.eepStart + (C.assocAt - B.eepStart) = C.assocAt by omega]
  · rename_i hk
    simp only [hk] at hp
    have h := H.tables (B.eepStart + 0x37A, le16 C.assocAt) (by simp [image, hk])
    rw [eepWord_eq h (by simp [assocImage] at ht; omega)]
    exact hseg

theorem objectCount_eq : objectCount B m = C.objs.length := by
  unfold objectCount
  rw [configTable_eq H]
  have h := H.comm
  have : (commImage B C)[0]? = some (b8 C.objs.length) := by unfold commImage; split <;> rfl
  have h0 := h.get this
  rw [Nat.add_zero] at h0
  simp only [Option.getD_some, h0]
  exact toNat_b8 H.valid.counts.2.2

omit H in
theorem dataPtrWord_eq {a p : Nat} (h0 : (ptr16 B p)[0]? = some (m a)) (h1 : (ptr16 B p)[1]? = some (m (a + 1)))
    (hp : p < 65536) : dataPtrWord B m a = p := by
  unfold dataPtrWord
  unfold ptr16 at h0 h1
  split
  · rename_i hl
    rw [if_pos hl] at h0 h1
    simp only [le16, List.getElem?_cons_zero, List.getElem?_cons_succ, Option.some.injEq] at h0 h1
    rw [← h0, ← h1]; exact makeWord_be p hp
  · rename_i hl
    rw [if_neg hl] at h0 h1
    simp only [be16, List.getElem?_cons_zero, List.getElem?_cons_succ, Option.some.injEq] at h0 h1
    rw [← h0, ← h1]; exact makeWord_be p hp

omit H in
theorem ptr16_length (B : Bcu) (n : Nat) : (ptr16 B n).length = 2 := by unfold ptr16; split <;> rfl

theorem flagsTable_eq : objectFlagsTable B m = some C.flagsAt := by
  unfold objectFlagsTable
  rw [configTable_eq H]
  have h := H.comm
  have hp := H.valid.pointers
  have hf := H.valid.flags
  have hseg := H.flagsSeg
  split
  · contradiction
  · rename_i t ht
    injection ht with ht
    subst ht
    split
    · rename_i hk
      simp only [hk] at hp
      have : (commImage B C)[1]? = some (b8 C.flagsAt) := by unfold commImage; simp only [hk]; rfl
      rw [h.get this, toNat_b8 (by omega)]
      exact hseg
    · rename_i hk
      simp only [hk] at hp
      have g : ∀ j, j < 2 → (commImage B C)[1 + j]? = (ptr16 B C.flagsAt)[j]? := by
        intro j hj
        have : commImage B C = [b8 C.objs.length] ++ (ptr16 B C.flagsAt ++ C.objs.flatMap (fun o => ptr16 B o.ptr ++ [o.config, b8 o.type])) := by
          unfold commImage; simp only [hk]; rfl
        rw [this, List.getElem?_append_right (by simp), List.getElem?_append_left (by rw [ptr16_length]; simp; omega)]
        simp
      have hb0 : ∃ b, (ptr16 B C.flagsAt)[0]? = some b := by
        have := ptr16_length B C.flagsAt
        exact ⟨(ptr16 B C.flagsAt)[0], List.getElem?_eq_getElem (by omega)⟩
      have hb1 : ∃ b, (ptr16 B C.flagsAt)[1]? = some b := by
        have := ptr16_length B C.flagsAt
        exact ⟨(ptr16 B C.flagsAt)[1], List.getElem?_eq_getElem (by omega)⟩
      obtain ⟨x0, hx0⟩ := hb0
      obtain ⟨x1, hx1⟩ := hb1
      have e0 := h.get ((g 0 (by omega)).trans hx0)
      have e1 := h.get ((g 1 (by omega)).trans hx1)
      rw [dataPtrWord_eq (p := C.flagsAt) (by rw [hx0, e0]) (by rw [hx1, ← e1])
        (by unfold inSegment at hf; omega)]
      exact hseg

theorem entry_eq (i : Nat) : objectEntry B m i = match B.kind with
    | .bcu1 => C.commAt + 2 + i * 3
    | .bcu2 => C.commAt + 3 + i * 4 := by
  unfold objectEntry
  rw [configTable_eq H]
  cases B.kind <;> simp only [Option.getD_some]

theorem entry1 (hk : B.kind = .bcu1) (i j : Nat) (hi : i < C.objs.length) (hj : j < 3) {b : Byte}
    (hb : [b8 C.objs[i].ptr, C.objs[i].config, b8 C.objs[i].type][j]? = some b) : m (objectEntry B m i + j) = b := by
  have h := H.comm
  unfold commImage at h
  simp only [hk] at h
  rw [entry_eq H, hk]
  exact at_entry 3 h (fun _ => rfl) i j hi hj hb

theorem entry2 (hk : B.kind = .bcu2) (i j : Nat) (hi : i < C.objs.length) (hj : j < 4) {b : Byte}
    (hb : (ptr16 B C.objs[i].ptr ++ [C.objs[i].config, b8 C.objs[i].type])[j]? = some b) : m (objectEntry B m i + j) = b := by
  have h := H.comm
  have e : commImage B C = (b8 C.objs.length :: ptr16 B C.flagsAt) ++ C.objs.flatMap (fun o => ptr16 B o.ptr ++ [o.config, b8 o.type]) := by
    unfold commImage; simp only [hk]
  rw [e] at h
  rw [entry_eq H, hk]
  have := at_entry 4 h (fun x => by simp [ptr16_length]) i j hi hj hb
  rw [List.length_cons, ptr16_length] at this
  exact this

theorem objectConfig_eq (i : Nat) (hi : i < C.objs.length) : objectConfig B m i = C.objs[i].config := by
  unfold objectConfig
  split
  · rename_i hk; exact entry1 H hk i 1 hi (by omega) rfl
  · rename_i hk
    exact entry2 H hk i 2 hi (by omega) (by rw [List.getElem?_append_right (by rw [ptr16_length]; omega), ptr16_length]; rfl)

theorem objectType_eq (i : Nat) (hi : i < C.objs.length) : objectType B m i = C.objs[i].type := by
  have ht := H.valid.types _ (List.getElem_mem hi)
  unfold objectType
  split
  · rename_i hk; rw [entry1 H hk i 2 hi (by omega) rfl]; exact toNat_b8 (by omega)
  · rename_i hk
    rw [entry2 H hk i 3 hi (by omega) (b := b8 C.objs[i].type)
      (by rw [List.getElem?_append_right (by rw [ptr16_length]; omega), ptr16_length]; rfl)]
    exact toNat_b8 (by omega)

theorem objectSize_eq (i : Nat) (hi : i < C.objs.length) : objectSize B m i = bytesOf C.objs[i].type := by
  unfold objectSize
  rw [objectType_eq H i hi]
  exact sizeOfType_eq (H.valid.types _ (List.getElem_mem hi))

theorem telegramObjectSize_eq (i : Nat) (hi : i < C.objs.length) :
    telegramObjectSize B m i = if C.objs[i].type < 6 then 0 else (bytesOf C.objs[i].type : Int) := by
  unfold telegramObjectSize
  rw [objectType_eq H i hi, objectSize_eq H i hi]

theorem valuePtr_eq (i : Nat) (hi : i < C.objs.length) : objectValuePtr B m i = some (valueAt B C.objs[i]) := by
  have hv := H.valid.values _ (List.getElem_mem hi)
  have hseg := userMemoryPtr_seg hv (bytesOf_pos _)
  have hp := H.valid.pointers
  unfold objectValuePtr
  unfold valueAt at hseg hv ⊢
  split
  · rename_i hk
    simp only [hk] at hseg hp ⊢
    have e := entry1 H hk i 0 hi (by omega) rfl
    rw [Nat.add_zero] at e
    rw [configTable_eq H, if_neg (by simp), objectConfig_eq H i hi, e,
      toNat_b8 (hp.2.2.2.2.2 _ (List.getElem_mem hi))]
    by_cases hc : C.objs[i].config &&& 32#8 = 0#8
    · rw [if_neg (fun h => h hc)]; rw [if_pos hc] at hseg; rw [if_pos hc]; exact hseg
    · rw [if_pos hc]; rw [if_neg hc] at hseg; rw [if_neg hc]; exact hseg
  · rename_i hk
    simp only [hk] at hseg hp hv ⊢
    have g : ∀ j, j < 2 → (ptr16 B C.objs[i].ptr)[j]? = some (m (objectEntry B m i + j)) := by
      intro j hj
      have hb := List.getElem?_eq_getElem (l := ptr16 B C.objs[i].ptr) (i := j) (by rw [ptr16_length]; exact hj)
      rw [hb]
      congr 1
      exact (entry2 H hk i j hi (by omega) (by rw [List.getElem?_append_left (by rw [ptr16_length]; exact hj)]; exact hb)).symm
    have := bytesOf_pos C.objs[i].type
    have g0 := g 0 (by omega)
    rw [Nat.add_zero] at g0
    rw [dataPtrWord_eq g0 (g 1 (by omega)) (by unfold inSegment at hv; omega)]
    exact hseg

theorem assocCount_eq : (m C.assocAt).toNat = C.assoc.length := by
  have h := H.assocT.get (i := 0) rfl
  rw [Nat.add_zero] at h
  rw [h]
  exact toNat_b8 H.valid.counts.2.1

theorem assocEntry_eq (i : Nat) (hi : i < C.assoc.length) :
    (m (C.assocAt + 1 + i * 2)).toNat = C.assoc[i].1 ∧ (m (C.assocAt + 1 + i * 2 + 1)).toNat = C.assoc[i].2 := by
  have h := H.assocT
  unfold assocImage at h
  have hv := H.valid.assocs _ (List.getElem_mem hi)
  have hc := H.valid.counts
  have e0 := at_entry 2 h (fun _ => rfl) i 0 hi (by omega) rfl
  have e1 := at_entry 2 h (fun _ => rfl) i 1 hi (by omega) rfl
  rw [Nat.add_zero] at e0
  exact ⟨by rw [show C.assocAt + 1 + i * 2 = C.assocAt + [b8 C.assoc.length].length + i * 2 from rfl, e0]; exact toNat_b8 (by omega),
    by rw [show C.assocAt + 1 + i * 2 + 1 = C.assocAt + [b8 C.assoc.length].length + i * 2 + 1 from rfl, e1]; exact toNat_b8 (by omega)⟩

theorem addrNum_eq : (m C.addrAt).toNat = C.groups.length + 1 := by
  have h := H.addr.get (i := 0) (b := b8 (C.groups.length + 1)) rfl
  rw [Nat.add_zero] at h
  rw [h]
  exact toNat_b8 H.valid.counts.1

theorem group_eq (i : Nat) (hi : i < C.groups.length) :
    m (C.addrAt + 3 + i * 2) = BitVec.ofNat 8 (C.groups[i].toNat / 256) ∧
    m (C.addrAt + 3 + i * 2 + 1) = BitVec.ofNat 8 C.groups[i].toNat := by
  have h := H.addr
  unfold addrImage at h
  have e0 := at_entry 2 h (fun _ => rfl) i 0 hi (by omega) rfl
  have e1 := at_entry 2 h (fun _ => rfl) i 1 hi (by omega) rfl
  exact ⟨e0, e1⟩

theorem addrCount_ge : C.groups.length + 1 ≤ addrCount B m := by
  unfold addrCount
  rw [addrTable_eq H]
  simp only [Option.getD_some]
  split
  · rw [addrNum_eq H]; omega
  · have := addrNum_eq H
    unfold makeWord
    rw [BitVec.toNat_setWidth, BitVec.toNat_or, BitVec.toNat_shiftLeft, BitVec.toNat_setWidth, BitVec.toNat_setWidth]
    have ha := (m (C.addrAt + 1)).isLt; have hb := (m C.addrAt).isLt
    rw [Nat.mod_eq_of_lt (by omega : (m (C.addrAt + 1)).toNat < 2 ^ 32), Nat.mod_eq_of_lt (by omega : (m C.addrAt).toNat < 2 ^ 32), Nat.shiftLeft_eq,
      Nat.mod_eq_of_lt (by omega : (m (C.addrAt + 1)).toNat * 2 ^ 8 < 2 ^ 32), Nat.mul_comm, ← Nat.two_pow_add_eq_or_of_lt (by omega)]
    omega

/-- The tables survive any change of values and flags. -/
theorem Configured.frame {m' : Mem} (h : ∀ a, ¬ inData B C a → m' a = m a) : Configured B m' C := by
  refine ⟨H.valid, ?_⟩
  intro t ht i hi
  rw [h _ (H.valid.separate t ht i hi)]
  exact H.tables t ht i hi

end

end Verif.Com
