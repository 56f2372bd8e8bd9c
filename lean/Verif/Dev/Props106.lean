import Verif.Dev.Spec106
import Verif.Dev.Props26

/-!
# C106: what a device tells about itself
-/

namespace Verif.Dev

open Verif.Knx

variable {W : World}

/-! ## Helper lemmas -/

/-- A definition of the code says the same as an entry of the specification. -/
def Fits (p : PropDef) (i : PropInfo) : Prop :=
  p.id = i.id ∧ 0 < p.id ∧ p.id < 256 ∧ p.control % 32 = i.type ∧ p.control < 256 ∧ p.writable = i.writable ∧
  (p.control.testBit 6 && p.control.testBit 5) = i.array ∧ p.size = i.size ∧ 1 ≤ p.size ∧
  (∀ b o, i.source = .memory b o →
    p.area = (if b then .ee else .ram) ∧ p.offset = o) ∧
  (∀ l, i.source = .constant l → p.area = .own ∧ p.offset = 0 ∧ i.array = false)

/-- The same as a test. -/
def fits (p : PropDef) (i : PropInfo) : Bool :=
  decide (p.id = i.id) && decide (0 < p.id) && decide (p.id < 256) && decide (p.control % 32 = i.type) &&
  decide (p.control < 256) && decide (p.writable = i.writable) &&
  decide ((p.control.testBit 6 && p.control.testBit 5) = i.array) && decide (p.size = i.size) &&
  decide (1 ≤ p.size) &&
  (match i.source with
   | .memory b o => decide (p.area = (if b then .ee else .ram)) && decide (p.offset = o)
   | .constant _ => decide (p.area = .own) && decide (p.offset = 0) && decide (i.array = false))

theorem fits_sound {p : PropDef} {i : PropInfo} (h : fits p i = true) : Fits p i := by
  unfold fits at h
  simp only [Bool.and_eq_true, decide_eq_true_eq] at h
  obtain ⟨⟨⟨⟨⟨⟨⟨⟨⟨h1, h2⟩, h3⟩, h4⟩, h5⟩, h6⟩, h7⟩, h8⟩, h9⟩, h10⟩ := h
  refine ⟨h1, h2, h3, h4, h5, h6, h7, h8, h9, ?_, ?_⟩
  · intro b o hs
    rw [hs] at h10
    simpa using h10
  · intro l hs
    rw [hs] at h10
    simp at h10
    exact ⟨h10.1.1, h10.1.2, h10.2⟩

/-- The tables agree, entry by entry. -/
theorem tables_agree : ∀ obj, obj < 6 →
    ((propTab obj).length = (propsOf obj).length ∧
      (((propTab obj).zip (propsOf obj)).all (fun x => fits x.1 x.2)) = true) := by decide

theorem propsOf_obj {obj : Nat} {i : PropInfo} (h : i ∈ propsOf obj) : i.obj = obj ∧ i ∈ known := by
  unfold propsOf at h
  rw [List.mem_filter] at h
  exact ⟨of_decide_eq_true h.2, h.1⟩

theorem known_obj : ∀ i ∈ known, i.obj < 6 := by decide

theorem propsOf_big (obj : Nat) (h : 6 ≤ obj) : propsOf obj = [] := by
  unfold propsOf
  rw [List.filter_eq_nil_iff]
  intro i hi hc
  have h1 := known_obj i hi
  have h2 : i.obj = obj := of_decide_eq_true hc
  omega

theorem propTab_big (obj : Nat) (h : 6 ≤ obj) : propTab obj = [] := by
  unfold propTab
  split <;> first | omega | rfl

/-- The entry with an index. -/
theorem entry_at {obj : Nat} (ho : obj < 6) (k : Nat) :
    (∀ i, (propsOf obj)[k]? = some i → ∃ p, (propTab obj)[k]? = some p ∧ Fits p i) ∧
    ((propsOf obj)[k]? = none → (propTab obj)[k]? = none) := by
  obtain ⟨hl, hz⟩ := tables_agree obj ho
  rw [List.all_eq_true] at hz
  constructor
  · intro i hi
    obtain ⟨hk, he⟩ := List.getElem?_eq_some_iff.1 hi
    have hk' : k < (propTab obj).length := by omega
    refine ⟨(propTab obj)[k], List.getElem?_eq_getElem hk', ?_⟩
    apply fits_sound
    refine hz ((propTab obj)[k], i) ?_
    rw [← he, ← List.getElem_zip (h := by rw [List.length_zip]; omega)]
    exact List.getElem_mem _
  · intro hn
    rw [List.getElem?_eq_none_iff] at hn ⊢
    omega

/-- Looking up an identifier gives the entry with it. -/
theorem lookup_known {obj pid : Nat} {i : PropInfo} (hi : i ∈ propsOf obj) (hp : i.id = pid) :
    ∃ p, propertyDef obj pid = some p ∧ Fits p i := by
  have ho : obj < 6 := by
    have h1 := propsOf_obj hi
    have h2 := known_obj i h1.2
    omega
  have key : ∀ obj, obj < 6 → ∀ i ∈ propsOf obj,
      (match propertyDef obj i.id with | none => false | some p => fits p i) = true := by decide
  have h := key obj ho i hi
  rw [hp] at h
  split at h
  · cases h
  · rename_i p hpd
    exact ⟨p, hpd, fits_sound h⟩

theorem lookup_unknown {obj pid : Nat} (h : ∀ i ∈ propsOf obj, i.id ≠ pid) : propertyDef obj pid = none := by
  unfold propertyDef
  rw [List.find?_eq_none]
  intro p hp hc
  by_cases ho : obj < 6
  · have key : ∀ obj, obj < 6 → ∀ p ∈ propTab obj, ∃ i ∈ propsOf obj, i.id = p.id := by decide
    obtain ⟨i, hi, hid⟩ := key obj ho p hp
    exact h i hi (hid.trans (of_decide_eq_true hc))
  · rw [propTab_big obj (by omega)] at hp
    cases hp

theorem desc_apply (hk : W.kind ≠ .bcu1) (d : Dev) {t : Buf} (l : Nat) (sb : Buf)
    (h : apciCommand t = 0x3d8#16) :
    processApci W d t l sb =
      ((propDesc d (t 8).toNat (t 9).toNat (t 10).toNat (propHeader sb 0x68#8 0x3d9#16 t)).1,
       (propDesc d (t 8).toNat (t 9).toNat (t 10).toNat (propHeader sb 0x68#8 0x3d9#16 t)).2.1, true) := by
  unfold processApci
  rw [if_neg hk]
  unfold bcu2Apci
  rw [h, if_neg (by decide), if_pos rfl]

theorem elements_eq (d : Dev) {p : PropDef} {i : PropInfo} (h : Fits p i) :
    (if p.control.testBit 6 && p.control.testBit 5 then areaBytes d p p.offset else 1#8).toNat = elements d i ∧
    elements d i < 256 := by
  obtain ⟨_, _, _, _, _, _, h7, _, _, hm, hc⟩ := h
  rw [h7]
  unfold elements
  cases hs : i.source with
  | memory b o =>
    obtain ⟨ha, ho⟩ := hm b o hs
    cases i.array with
    | false => exact ⟨rfl, show 1 < 256 by decide⟩
    | true =>
      have e : areaBytes d p p.offset = sourceMem d b o := by
        unfold areaBytes sourceMem
        rw [ha, ho]
        cases b <;> rfl
      dsimp only
      rw [if_pos rfl, e]
      exact ⟨rfl, (sourceMem d b o).isLt⟩
  | constant l =>
    have := (hc l hs).2.2
    rw [this]
    exact ⟨rfl, show 1 < 256 by decide⟩

theorem type_byte (c : Nat) (h : c < 256) :
    (BitVec.ofNat 8 c &&& 0x9f#8).toNat % 128 = c % 32 ∧
    (BitVec.ofNat 8 c &&& 0x9f#8).getLsbD 7 = c.testBit 7 := by
  revert h
  revert c
  decide +kernel

/-- What the description of a definition looks like. -/
theorem desc_found (hk : W.kind ≠ .bcu1) (d : Dev) {t : Buf} (l : Nat) (sb : Buf) {obj pid index : Nat}
    (hr : DescRequest t obj pid index) {p : PropDef} {i : PropInfo} (hf : Fits p i) (ho : i.obj = obj)
    (hu : ¬ (pid = 0 ∧ ¬ (obj < 6 ∧ index ≤ (propTab obj).length)))
    (hl : (if pid = 0 then (propTab obj)[index]? else propertyDef obj pid) = some p) :
    (processApci W d t l sb).1 = d ∧ (processApci W d t l sb).2.2 = true ∧
    DescResponse (processApci W d t l sb).2.1 index i (elements d i) := by
  rw [desc_apply hk d l sb hr.apci, hr.obj, hr.pid, hr.index]
  unfold propDesc
  rw [if_neg hu, hl]
  obtain ⟨e1, e2⟩ := elements_eq d hf
  obtain ⟨h1, h2, h3, h4, h5, h6, _⟩ := hf
  obtain ⟨t1, t2⟩ := type_byte p.control h5
  have hidx : index < 256 := by rw [← hr.index]; exact (t 10).isLt
  refine ⟨rfl, rfl, rfl, rfl, rfl, ?_, ?_, ?_, ?_, ?_, ?_, ?_⟩
  · exact hr.obj.trans ho.symm
  · show (BitVec.ofNat 8 p.id).toNat = _
    rw [BitVec.toNat_ofNat, ← h1]
    exact Nat.mod_eq_of_lt h3
  · show (BitVec.ofNat 8 index).toNat = _
    rw [BitVec.toNat_ofNat]
    exact Nat.mod_eq_of_lt hidx
  · exact t1.trans h4
  · exact t2.trans h6
  · show (0#8).toNat % 16 * 256 +
      (if p.control.testBit 6 && p.control.testBit 5 then areaBytes d p p.offset else 1#8).toNat = _
    rw [e1]
    show 0 + elements d i = _
    omega
  · rw [← h6]; rfl

theorem desc_none (hk : W.kind ≠ .bcu1) (d : Dev) {t : Buf} (l : Nat) (sb : Buf) {obj pid index : Nat}
    (hr : DescRequest t obj pid index)
    (hu : ¬ (pid = 0 ∧ ¬ (obj < 6 ∧ index ≤ (propTab obj).length)))
    (hl : (if pid = 0 then (propTab obj)[index]? else propertyDef obj pid) = none) :
    (processApci W d t l sb).1 = d ∧ (processApci W d t l sb).2.2 = true ∧
    DescFailure (processApci W d t l sb).2.1 obj pid index := by
  rw [desc_apply hk d l sb hr.apci, hr.obj, hr.pid, hr.index]
  unfold propDesc
  rw [if_neg hu, hl]
  have hidx : index < 256 := by rw [← hr.index]; exact (t 10).isLt
  have hpid : pid < 256 := by rw [← hr.pid]; exact (t 9).isLt
  refine ⟨rfl, rfl, rfl, rfl, rfl, hr.obj, ?_, ?_, rfl, ⟨rfl, rfl⟩, rfl⟩
  · show (BitVec.ofNat 8 pid).toNat = _
    rw [BitVec.toNat_ofNat]
    exact Nat.mod_eq_of_lt hpid
  · show (BitVec.ofNat 8 index).toNat = _
    rw [BitVec.toNat_ofNat]
    exact Nat.mod_eq_of_lt hidx

/-! ## The property -/

/-- **C106**, descriptions by identifier: the request for the description of a property that the device has
is answered with its type, its write bit and its number of elements, and changes nothing. -/
theorem C106_description (hk : W.kind ≠ .bcu1) (d : Dev) (t : Buf) (l : Nat) (sb : Buf) (i : PropInfo)
    (hi : i ∈ known) (index : Nat) (hr : DescRequest t i.obj i.id index) :
    (processApci W d t l sb).1 = d ∧ (processApci W d t l sb).2.2 = true ∧
    DescResponse (processApci W d t l sb).2.1 index i (elements d i) := by
  have hm : i ∈ propsOf i.obj := List.mem_filter.2 ⟨hi, decide_eq_true rfl⟩
  obtain ⟨p, hp, hf⟩ := lookup_known hm rfl
  have h0 : i.id ≠ 0 := fun h => by have := hf.1; have := hf.2.1; omega
  exact desc_found hk d l sb hr hf rfl (fun h => h0 h.1) (by rw [if_neg h0]; exact hp)

/-- **C106**: the request for a property that the device does not have is answered as failed. -/
theorem C106_description_unknown (hk : W.kind ≠ .bcu1) (d : Dev) (t : Buf) (l : Nat) (sb : Buf)
    (obj pid index : Nat) (h0 : pid ≠ 0) (hr : DescRequest t obj pid index)
    (hu : ∀ i ∈ known, ¬ (i.obj = obj ∧ i.id = pid)) :
    (processApci W d t l sb).1 = d ∧ (processApci W d t l sb).2.2 = true ∧
    DescFailure (processApci W d t l sb).2.1 obj pid index := by
  refine desc_none hk d l sb hr (fun h => h0 h.1) ?_
  rw [if_neg h0]
  refine lookup_unknown (fun i hi hc => ?_)
  have := propsOf_obj hi
  exact hu i this.2 ⟨this.1, hc⟩

/-- **C106** (partial; missing: objects from 6 on and indexes beyond the end, where the code reads outside
its tables, see `C106_index_unchecked`), descriptions by index: the properties of an object are found under
the indexes 0, 1, 2, …, in a fixed order, and the index after the last one is answered as failed. -/
theorem C106_description_by_index_partial (hk : W.kind ≠ .bcu1) (d : Dev) (t : Buf) (l : Nat) (sb : Buf)
    (obj index : Nat) (ho : obj < 6) (hx : index ≤ (propsOf obj).length)
    (hr : DescRequest t obj 0 index) :
    (processApci W d t l sb).1 = d ∧ (processApci W d t l sb).2.2 = true ∧
    (∀ i, (propsOf obj)[index]? = some i →
      DescResponse (processApci W d t l sb).2.1 index i (elements d i)) ∧
    (index = (propsOf obj).length → DescFailure (processApci W d t l sb).2.1 obj 0 index) := by
  have hu : ¬ ((0 : Nat) = 0 ∧ ¬ (obj < 6 ∧ index ≤ (propTab obj).length)) := by
    rw [(tables_agree obj ho).1]
    exact fun h => h.2 ⟨ho, hx⟩
  obtain ⟨ha, hb⟩ := entry_at ho index
  by_cases hend : index = (propsOf obj).length
  · have hn : (propsOf obj)[index]? = none := List.getElem?_eq_none_iff.2 (by omega)
    obtain ⟨r1, r2, r3⟩ := desc_none hk d l sb hr hu (by rw [if_pos rfl]; exact hb hn)
    refine ⟨r1, r2, fun i hi => ?_, fun _ => r3⟩
    rw [hn] at hi
    cases hi
  · have hs : ∃ i, (propsOf obj)[index]? = some i := ⟨_, List.getElem?_eq_getElem (by omega)⟩
    obtain ⟨i, hi⟩ := hs
    obtain ⟨p, hp, hf⟩ := ha i hi
    have hm : i ∈ propsOf obj := List.mem_of_getElem? hi
    obtain ⟨r1, r2, r3⟩ := desc_found hk d l sb hr hf (propsOf_obj hm).1 hu (by rw [if_pos rfl]; exact hp)
    refine ⟨r1, r2, fun j hj => ?_, fun h => absurd h hend⟩
    rw [hi] at hj
    cases hj
    exact r3

/-- **C106**, enumeration: every property is found under exactly one index of its object.  A tool that asks
for the indexes 0, 1, 2, … until the answer "failed" sees every property once. -/
theorem C106_enumeration (hk : W.kind ≠ .bcu1) (d : Dev) (i : PropInfo) (hi : i ∈ known) :
    ∃ index, index < (propsOf i.obj).length ∧
      (∀ t l sb, DescRequest t i.obj 0 index →
        DescResponse (processApci W d t l sb).2.1 index i (elements d i)) ∧
      ∀ index' t l sb, index' < (propsOf i.obj).length → DescRequest t i.obj 0 index' →
        ((processApci W d t l sb).2.1 9).toNat = i.id → index' = index := by
  have ho := known_obj i hi
  have hm : i ∈ propsOf i.obj := List.mem_filter.2 ⟨hi, decide_eq_true rfl⟩
  obtain ⟨k, hk1, hk2⟩ := List.getElem_of_mem hm
  refine ⟨k, hk1, fun t l sb hr => ?_, fun k' t l sb hk' hr hid => ?_⟩
  · exact (C106_description_by_index_partial hk d t l sb i.obj k ho (by omega) hr).2.2.1 i
      (by rw [List.getElem?_eq_getElem hk1, hk2])
  · have hj := (C106_description_by_index_partial hk d t l sb i.obj k' ho (by omega) hr).2.2.1
      ((propsOf i.obj)[k']) (List.getElem?_eq_getElem hk')
    have he : ((propsOf i.obj)[k']).id = i.id := by rw [← hj.pid, hid]
    have key : ∀ obj, obj < 6 → ∀ a, (h : a < (propsOf obj).length) → ∀ b, (h' : b < (propsOf obj).length) →
        ((propsOf obj)[a]).id = ((propsOf obj)[b]).id → a = b := by decide
    exact key i.obj ho k' hk' k hk1 (by rw [he, hk2])

/-- **C106**, the write bit is honoured: if the description of a property says that it cannot be written,
every attempt to write it is answered as failed and changes nothing. -/
theorem C106_write_bit (hk : W.kind ≠ .bcu1) (d d' : Dev) (t t' : Buf) (l l' : Nat) (sb sb' : Buf)
    (obj pid index count start : Nat) (h0 : pid ≠ 0) (hr : DescRequest t obj pid index)
    (hb : ((processApci W d t l sb).2.1 11).getLsbD 7 = false)
    (hw : PropWriteRequest t' obj pid count start) :
    (processApci W d' t' l' sb').1 = d' ∧ PropFailure (processApci W d' t' l' sb').2.1 obj pid := by
  have hn : ¬ Writable obj pid := by
    intro hc
    have key : (∀ x ∈ writables, ∃ i ∈ known, i.obj = x.1 ∧ i.id = x.2 ∧ i.writable = true) ∧
        (∀ o, o < 6 → ∃ i ∈ known, i.obj = o ∧ i.id = 5 ∧ i.writable = true) := by decide
    have hex : ∃ i ∈ known, i.obj = obj ∧ i.id = pid ∧ i.writable = true := by
      rcases hc with hc | hc
      · exact key.1 _ hc
      · obtain ⟨i, h1, h2, h3, h4⟩ := key.2 obj hc.1
        exact ⟨i, h1, h2, h3.trans hc.2.symm, h4⟩
    obtain ⟨i, h1, h2, h3, h4⟩ := hex
    subst h2 h3
    have := (C106_description hk d t l sb i h1 index hr).2.2.write
    rw [hb, h4] at this
    cases this
  have := C26_refused hk d' t' l' sb' obj pid count start hw hn
  exact ⟨this.1, this.2.2⟩

/-- Reading elements that are in a memory. -/
theorem read_memory {d : Dev} {p : PropDef} {i : PropInfo} (hf : Fits p i) {inEe : Bool} {o : Nat}
    (hs : i.source = .memory inEe o) {obj pid count start : Nat} (hid : i.id = pid)
    (hp : propertyDef obj pid = some p) {t : Buf} {sb : Buf}
    (hr : PropReadRequest t obj pid count start) (h1 : 1 ≤ start)
    (hroom : o + (start - 1) * i.size + count * i.size ≤ (if inEe then W.kind.eeSize else W.kind.ramSize + 3))
    (hlen : count * i.size ≤ readRoom W i) :
    ∃ b, propRead W d obj pid count start (upd (propHeader sb 0x65#8 0x3d6#16 t) 11 (t 11)) = (d, b, true) ∧
      PropResponse b obj pid count start (readBytes W i (sourceMem d inEe) o count start) := by
  obtain ⟨_, _, _, htype, _, _, _, hsz, _, hm, _⟩ := hf
  obtain ⟨ha, hoff⟩ := hm inEe o hs
  have hlen12 : count * i.size ≤ if W.kind = .systemb then 12 else 10 := by
    unfold readRoom at hlen
    split at hlen
    · rename_i h; rw [if_pos h]; split at hlen <;> omega
    · rename_i h; rw [if_neg h]; omega
  have hlen11 : count * i.size ≤ 11 := by
    unfold readRoom at hlen
    split at hlen
    · split at hlen <;> omega
    · omega
  have hfirst : (((o : Int) + ((start : Int) - 1) * i.size)) = ((o + (start - 1) * i.size : Nat) : Int) := by
    have h2 : (start : Int) - 1 = ((start - 1 : Nat) : Int) := by omega
    rw [h2, Int.natCast_add, Int.natCast_mul]
  have hsize : areaSize W.kind p.area = if inEe then W.kind.eeSize else W.kind.ramSize + 3 := by
    rw [ha]
    cases inEe <;> rfl
  have hbytes : areaBytes d p = sourceMem d inEe := by
    unfold areaBytes sourceMem
    rw [ha]
    cases inEe <;> rfl
  have hin : inArray (areaSize W.kind p.area) ((o + (start - 1) * i.size : Nat) : Int) (count * i.size) = true := by
    unfold inArray
    rw [decide_eq_true_iff, hsize]
    right
    constructor
    · exact Int.natCast_nonneg _
    · rw [← Int.natCast_add]
      exact Int.ofNat_le.2 hroom
  unfold propRead
  rw [hp]
  dsimp only
  rw [hsz, hoff, hfirst, Int.toNat_natCast, hbytes, if_neg (by omega)]
  have hty : p.type = i.type := htype
  rw [hty]
  unfold readBytes
  generalize ha' : o + (start - 1) * i.size = a at *
  generalize hn' : count * i.size = n at *
  by_cases hB : W.kind = .systemb ∧ i.id = 7
  · have hnum : i.type < 0x0c := by
      have key : ∀ obj, obj < 6 → ∀ q ∈ propTab obj, q.id = 7 → q.type < 0x0c := by decide
      obtain ⟨ho6, hmem, hpid⟩ := propertyDef_mem hp
      rw [← hty]
      exact key obj ho6 p hmem (by omega)
    have hlen9 : n ≤ 9 := by
      unfold readRoom at hlen
      rw [if_pos hB.1, if_pos hB.2] at hlen
      exact hlen
    rw [if_pos ⟨hB.1, hnum, by omega⟩, if_pos (by rw [hin, Bool.true_and, decide_eq_true_iff]; unfold bufSize; omega),
      if_pos hB]
    have hnumber : i.number = true := decide_eq_true hnum
    rw [hnumber]
    dsimp only
    rw [if_pos rfl]
    refine ⟨_, rfl, ?_⟩
    refine response_build hr sb _ (n + 2) (by omega) (fun j hj => ?_) _ ?_ (fun k hk => ?_)
    · unfold revBlit
      rw [if_neg (by omega), upd_ne _ _ _ _ (by omega), upd_ne _ _ _ _ (by omega)]
    · simp [bytesFrom]
    · unfold revBlit
      by_cases hk2 : k < 2
      · rw [if_neg (by omega)]
        match k, hk2 with
        | 0, _ => rfl
        | 1, _ => rfl
      · rw [if_pos (by omega)]
        obtain ⟨j, rfl⟩ : ∃ j, k = j + 2 := ⟨k - 2, by omega⟩
        have hj : j < n := by omega
        show _ = ([0#8, 0#8] ++ (bytesFrom (sourceMem d inEe) a n).reverse).getD (j + 2) 0#8
        rw [List.getD_eq_getElem?_getD]
        simp only [List.cons_append, List.nil_append, List.getElem?_cons_succ]
        rw [List.getElem?_reverse (by simpa [bytesFrom] using hj)]
        simp only [bytesFrom, List.length_map, List.length_range, List.getElem?_map]
        rw [List.getElem?_range (by omega)]
        show _ = sourceMem d inEe _
        congr 1
        omega
  · rw [if_neg (fun h => hB ⟨h.1, by omega⟩),
      if_pos (by rw [hin, Bool.true_and, decide_eq_true_iff]; unfold bufSize; omega), if_neg hB, List.nil_append]
    refine ⟨_, rfl, ?_⟩
    refine response_build hr sb _ n (by omega) (fun j hj => ?_) _ ?_ (fun k hk => ?_)
    · split
      · unfold revBlit; rw [if_neg (by omega)]
      · unfold blit; rw [if_neg (by omega)]
    · split <;> simp [bytesFrom]
    · by_cases hnum : i.type < 0x0c
      · have hnumber : i.number = true := decide_eq_true hnum
        rw [if_pos hnum, hnumber, if_pos rfl, List.getD_eq_getElem?_getD,
          List.getElem?_reverse (by simpa [bytesFrom] using hk)]
        simp only [bytesFrom, List.length_map, List.length_range, List.getElem?_map]
        rw [List.getElem?_range (by omega)]
        unfold revBlit
        rw [if_pos (by omega)]
        show _ = sourceMem d inEe _
        congr 1
        omega
      · have hnumber : i.number = false := decide_eq_false hnum
        rw [if_neg hnum, hnumber, if_neg (by decide), List.getD_eq_getElem?_getD]
        simp only [bytesFrom, List.getElem?_map]
        rw [List.getElem?_range hk]
        unfold blit
        rw [if_pos (by omega)]
        show _ = sourceMem d inEe _
        congr 1
        omega

/-- **C106** (partial; missing: elements outside the memory, and requests on System B whose answer does not
fit into the send buffer, see `C106_systemb_overflow`), values in the memory: reading elements of any property (also the read-only ones: serial number, manufacturer,
references to the tables, …) answers the bytes that are kept, numbers with the high byte first; nothing
changes. -/
theorem C106_read_partial (hk : W.kind ≠ .bcu1) (d : Dev) (t : Buf) (l : Nat) (sb : Buf) (i : PropInfo)
    (hi : i ∈ known) (inEe : Bool) (o : Nat) (hs : i.source = .memory inEe o) (count start : Nat)
    (hr : PropReadRequest t i.obj i.id count start) (h1 : 1 ≤ start ∧ start < 256)
    (hroom : o + (start - 1) * i.size + count * i.size ≤ (if inEe then W.kind.eeSize else W.kind.ramSize + 3))
    (hlen : count * i.size ≤ readRoom W i) :
    (processApci W d t l sb).1 = d ∧ (processApci W d t l sb).2.2 = true ∧
    PropResponse (processApci W d t l sb).2.1 i.obj i.id count start
      (readBytes W i (sourceMem d inEe) o count start) := by
  have hm : i ∈ propsOf i.obj := List.mem_filter.2 ⟨hi, decide_eq_true rfl⟩
  obtain ⟨p, hp, hf⟩ := lookup_known hm rfl
  obtain ⟨_, _, h3⟩ := start_eq hr h1.2
  obtain ⟨b, hb, hresp⟩ := read_memory (W := W) (d := d) hf hs rfl hp (sb := sb) hr h1.1 hroom hlen
  rw [propRead_apply hk d l sb hr.apci, hr.obj, hr.pid, hr.count, h3, hb]
  exact ⟨rfl, rfl, hresp⟩

/-- **C106**: a request for more bytes than a telegram can carry is answered as failed. -/
theorem C106_read_long (hk : W.kind ≠ .bcu1) (d : Dev) (t : Buf) (l : Nat) (sb : Buf) (i : PropInfo)
    (hi : i ∈ known) (count start : Nat) (hr : PropReadRequest t i.obj i.id count start)
    (hlen : (if W.kind = .systemb then 12 else 10) < count * i.size) :
    (processApci W d t l sb).1 = d ∧ PropFailure (processApci W d t l sb).2.1 i.obj i.id := by
  have hm : i ∈ propsOf i.obj := List.mem_filter.2 ⟨hi, decide_eq_true rfl⟩
  obtain ⟨p, hp, hf⟩ := lookup_known hm rfl
  have hsz : p.size = i.size := hf.2.2.2.2.2.2.2.1
  have hrd : ∀ start sb', propRead W d i.obj i.id count start sb' = (d, sb', false) := by
    intro start sb'
    unfold propRead
    rw [hp]
    dsimp only
    rw [hsz, if_pos hlen]
  rw [propRead_apply hk d l sb hr.apci, hr.obj, hr.pid, hr.count, hrd]
  refine ⟨rfl, rfl, rfl, rfl, ?_, ?_, ?_⟩
  · exact hr.obj
  · exact hr.pid
  · show (upd (upd (propHeader sb 0x65#8 0x3d6#16 t) 11 (t 11)) 10 0#8 10).toNat / 16 = 0
    rw [upd_same]
    rfl

/-- **C106** (partial; missing: requests for other elements than the first, which read beyond the constant, and
property 23, see `C106_table_beyond`), constant values: the object types and the other constants. -/
theorem C106_read_constant_partial (hk : W.kind ≠ .bcu1) (d : Dev) (t : Buf) (l : Nat) (sb : Buf) (i : PropInfo)
    (hi : i ∈ known) (data : List Byte) (hs : i.source = .constant data) (h23 : i.id ≠ 23)
    (hr : PropReadRequest t i.obj i.id 1 1) :
    (processApci W d t l sb).1 = d ∧ (processApci W d t l sb).2.2 = true ∧
    PropResponse (processApci W d t l sb).2.1 i.obj i.id 1 1 data := by
  obtain ⟨_, _, h3⟩ := start_eq hr (by decide)
  have key : ∀ i ∈ known, i.id ≠ 23 → (match i.source with
      | .memory _ _ => true
      | .constant data => match propertyDef i.obj i.id with
        | none => false
        | some p => decide (p.area = .own) && decide (p.offset = 0) && decide (p.size = data.length) &&
          decide (data.length ≤ 2) && decide (i.id ≠ 7) &&
          decide (∀ k, k < data.length → data.getD k 0#8 =
            BitVec.ofNat 8 (p.valAddr / 256 ^ (if p.type < 0x0c then data.length - 1 - k else k)))) = true := by
    decide
  have h := key i hi h23
  rw [hs] at h
  dsimp only at h
  split at h
  · cases h
  · rename_i p hp
    simp only [Bool.and_eq_true, decide_eq_true_eq] at h
    obtain ⟨⟨⟨⟨⟨ha, ho⟩, hsz⟩, hlen⟩, h7⟩, hd⟩ := h
    have hrd : ∃ b, propRead W d i.obj i.id 1 1 (upd (propHeader sb 0x65#8 0x3d6#16 t) 11 (t 11)) = (d, b, true) ∧
        PropResponse b i.obj i.id 1 1 data := by
      unfold propRead
      rw [hp]
      dsimp only
      rw [hsz, ho, Nat.one_mul, if_neg (by split <;> omega), if_neg (fun h => h7 h.2.2), ha]
      have hin : (inArray (areaSize W.kind .own) (((0 : Nat) : Int) + (((1 : Nat) : Int) - 1) * data.length) data.length &&
          decide (12 + data.length ≤ bufSize)) = true := by
        rw [Bool.and_eq_true]
        unfold inArray areaSize bufSize
        rw [decide_eq_true_iff, decide_eq_true_iff]
        constructor
        · right
          constructor
          · omega
          · show (((0 : Nat) : Int) + (((1 : Nat) : Int) - 1) * data.length) + (data.length : Int) ≤ ((2 : Nat) : Int)
            omega
        · omega
      rw [if_pos hin]
      refine ⟨_, rfl, ?_⟩
      have hz : (((0 : Nat) : Int) + (((1 : Nat) : Int) - 1) * data.length).toNat = 0 := by omega
      rw [hz]
      have hb : areaBytes d p = fun k => BitVec.ofNat 8 (p.valAddr / 256 ^ k) := by
        unfold areaBytes
        rw [ha]
      rw [hb]
      refine response_build hr sb _ data.length (by omega) (fun j hj => ?_) _ rfl (fun k hk' => ?_)
      · split
        · unfold revBlit; rw [if_neg (by omega)]
        · unfold blit; rw [if_neg (by omega)]
      · rw [hd k hk']
        split
        · unfold revBlit
          rw [if_pos (by omega)]
          congr 4
          omega
        · unfold blit
          rw [if_pos (by omega)]
          congr 4
          omega
    obtain ⟨b, hb, hresp⟩ := hrd
    rw [propRead_apply hk d l sb hr.apci, hr.obj, hr.pid, hr.count, h3, hb]
    exact ⟨rfl, rfl, hresp⟩

/-- **C106**, the device descriptor: every device answers the request for the descriptor 0 with its mask
version. -/
theorem C106_mask_version (d : Dev) (t : Buf) (l : Nat) (sb : Buf) (h : apciCommand t = 0x300#16)
    (h0 : (t 7).toNat % 64 = 0) :
    (processApci W d t l sb).1 = d ∧ (processApci W d t l sb).2.2 = true ∧
    DescriptorResponse (processApci W d t l sb).2.1 (maskOf W.kind) := by
  have hz : t 7 &&& 0x3f#8 = 0#8 := by
    revert h0
    generalize t 7 = x
    revert x
    decide +kernel
  have he : processApci W d t l sb = (d, upd (upd (setApciCommand (upd sb 5 0x63#8) 0x340#16 0#8) 8
      (highByte W.kind.maskVersion)) 9 (lowByte W.kind.maskVersion), true) := by
    have hdef : defaultApci W d 0x300#16 t sb = (d, upd (upd (setApciCommand (upd sb 5 0x63#8) 0x340#16 0#8) 8
      (highByte W.kind.maskVersion)) 9 (lowByte W.kind.maskVersion), true) := by
      unfold defaultApci
      rw [if_neg (by decide), if_neg (by decide), if_pos rfl, if_neg (fun hc => hc hz)]
    unfold processApci
    rw [h]
    by_cases hk : W.kind = .bcu1
    · rw [if_pos hk, hdef]
    · rw [if_neg hk]
      unfold bcu2Apci
      rw [if_neg (by decide), if_neg (by decide), hdef]
  rw [he]
  refine ⟨rfl, rfl, rfl, rfl, rfl, ?_⟩
  show (highByte W.kind.maskVersion).toNat * 256 + (lowByte W.kind.maskVersion).toNat = maskOf W.kind
  cases W.kind <;> rfl

/-- **C106**: other descriptors do not exist; the request is not answered and changes nothing. -/
theorem C106_other_descriptor (d : Dev) (t : Buf) (l : Nat) (sb : Buf) (h : apciCommand t = 0x300#16)
    (h0 : (t 7).toNat % 64 ≠ 0) : processApci W d t l sb = (d, sb, false) := by
  have hz : t 7 &&& 0x3f#8 ≠ 0#8 := by
    revert h0
    generalize t 7 = x
    revert x
    decide +kernel
  have hdef : defaultApci W d 0x300#16 t sb = (d, sb, false) := by
    unfold defaultApci
    rw [if_neg (by decide), if_neg (by decide), if_pos rfl, if_pos hz]
  unfold processApci
  rw [h]
  by_cases hk : W.kind = .bcu1
  · rw [if_pos hk, hdef]
  · rw [if_neg hk]
    unfold bcu2Apci
    rw [if_neg (by decide), if_neg (by decide), hdef]

/-- **C106**: the type BCU1 has no interface objects: requests for properties are not answered and change
nothing. -/
theorem C106_bcu1 (hk : W.kind = .bcu1) (d : Dev) (t : Buf) (l : Nat) (sb : Buf)
    (h : apciCommand t = 0x3d5#16 ∨ apciCommand t = 0x3d7#16 ∨ apciCommand t = 0x3d8#16) :
    processApci W d t l sb = (d, sb, false) := by
  unfold processApci
  rw [if_pos hk]
  unfold defaultApci
  rcases h with h | h | h <;>
  · rw [h, if_neg (by decide), if_neg (by decide), if_neg (by decide), if_neg (by decide), if_neg (by decide),
      if_neg (by decide)]

/-! ## Findings -/

/-- **C106** (finding): the authorization is granted to everybody: whatever key the request carries, the
answer is the access level 0, the highest, and nothing depends on it. -/
theorem C106_authorization_granted (d : Dev) (t : Buf) (l : Nat) (sb : Buf) (h : apciCommand t = 0x3d1#16) :
    (processApci W d t l sb).1 = d ∧ (processApci W d t l sb).2.2 = true ∧
    (processApci W d t l sb).2.1 5 = 0x62#8 ∧ (processApci W d t l sb).2.1 6 = 0x03#8 ∧
    (processApci W d t l sb).2.1 7 = 0xd2#8 ∧ (processApci W d t l sb).2.1 8 = 0#8 := by
  have hdef : defaultApci W d 0x3d1#16 t sb =
      (d, upd (setApciCommand (upd sb 5 0x62#8) 0x3d2#16 0#8) 8 0#8, true) := by
    unfold defaultApci
    rw [if_neg (by decide), if_neg (by decide), if_neg (by decide), if_neg (by decide), if_pos rfl]
  have he : processApci W d t l sb = (d, upd (setApciCommand (upd sb 5 0x62#8) 0x3d2#16 0#8) 8 0#8, true) := by
    unfold processApci
    rw [h]
    by_cases hk : W.kind = .bcu1
    · rw [if_pos hk, hdef]
    · rw [if_neg hk]
      unfold bcu2Apci
      rw [if_neg (by decide), if_neg (by decide), hdef]
  rw [he]
  exact ⟨rfl, rfl, rfl, rfl, rfl, rfl⟩

/-- **C106** (finding): the ADC service measures nothing: for every channel and every number of samples the
answer repeats channel and number and gives the value 0. -/
theorem C106_adc_zero (d : Dev) (t : Buf) (l : Nat) (sb : Buf) (h : apciCommand t = 0x180#16) :
    (processApci W d t l sb).1 = d ∧ (processApci W d t l sb).2.2 = true ∧
    (processApci W d t l sb).2.1 5 = 0x64#8 ∧ (processApci W d t l sb).2.1 6 = 0x01#8 ∧
    ((processApci W d t l sb).2.1 7).toNat = 0xc0 + (t 7).toNat % 64 ∧
    (processApci W d t l sb).2.1 8 = t 8 ∧ (processApci W d t l sb).2.1 9 = 0#8 ∧
    (processApci W d t l sb).2.1 10 = 0#8 := by
  have hdef : defaultApci W d 0x180#16 t sb =
      (d, upd (upd (upd (setApciCommand (upd sb 5 0x64#8) 0x1C0#16 (t 7 &&& 0x3f#8)) 8 (t 8)) 9 0#8)
        10 0#8, true) := by
    unfold defaultApci
    rw [if_pos rfl]
  have he : processApci W d t l sb =
      (d, upd (upd (upd (setApciCommand (upd sb 5 0x64#8) 0x1C0#16 (t 7 &&& 0x3f#8)) 8 (t 8)) 9 0#8)
        10 0#8, true) := by
    unfold processApci
    rw [h]
    by_cases hk : W.kind = .bcu1
    · rw [if_pos hk, hdef]
    · rw [if_neg hk]
      unfold bcu2Apci
      rw [if_neg (by decide), if_neg (by decide), hdef]
  rw [he]
  refine ⟨rfl, rfl, rfl, rfl, ?_, rfl, rfl, rfl⟩
  show (lowByte 0x1C0#16 ||| (t 7 &&& 0x3f#8)).toNat = 0xc0 + (t 7).toNat % 64
  generalize t 7 = x
  revert x
  decide +kernel

/-- **C106** (finding): the index and the object are not checked: a request for the description of a property
by index with an object from 6 on, or with an index beyond the end mark of the table, makes the code read
outside its tables. -/
theorem C106_index_unchecked (hk : W.kind ≠ .bcu1) (d : Dev) (t : Buf) (l : Nat) (sb : Buf) (obj index : Nat)
    (hr : DescRequest t obj 0 index) (hx : 6 ≤ obj ∨ (propsOf obj).length < index) :
    (processApci W d t l sb).1.undef = true := by
  have hu : (0 : Nat) = 0 ∧ ¬ (obj < 6 ∧ index ≤ (propTab obj).length) := by
    refine ⟨rfl, fun h => ?_⟩
    rw [(tables_agree obj h.1).1] at h
    omega
  rw [desc_apply hk d l sb hr.apci, hr.obj, hr.pid, hr.index]
  unfold propDesc
  rw [if_pos hu]

/-- **C106** (finding): the number of elements that the description of a table reference names is the low
byte of the table's address: of a device with the address table at 0x0116, it is 22, although there is
one reference. -/
theorem C106_reference_elements (hk : W.kind ≠ .bcu1) (d : Dev) (t : Buf) (l : Nat) (sb : Buf) (index : Nat)
    (hr : DescRequest t 1 7 index) (h : d.ee 0x378 = 0x16#8 ∧ d.ee 0x379 = 0x01#8) :
    ((processApci W d t l sb).2.1 12).toNat % 16 * 256 + ((processApci W d t l sb).2.1 13).toNat = 22 := by
  have hd := (C106_description hk d t l sb ⟨1, 7, 4, 2, false, true, .memory true 0x378⟩ (by decide) index hr).2.2
  rw [hd.count]
  show (d.ee 0x378).toNat = 22
  rw [h.1]
  rfl

/-- **C106** (finding): on System B the limit is twelve bytes, but the send buffer of 23 bytes has room for
eleven behind the head (nine if two zero bytes are put in front of a table reference).  A request in between
makes the code write beyond the buffer. -/
theorem C106_systemb_overflow (hk : W.kind = .systemb) (d : Dev) (t : Buf) (l : Nat) (sb : Buf) (i : PropInfo)
    (hi : i ∈ known) (count start : Nat) (hr : PropReadRequest t i.obj i.id count start)
    (hlen : readRoom W i < count * i.size ∧ count * i.size ≤ 12) :
    (processApci W d t l sb).1.undef = true := by
  have hk1 : W.kind ≠ .bcu1 := by rw [hk]; decide
  have hm : i ∈ propsOf i.obj := List.mem_filter.2 ⟨hi, decide_eq_true rfl⟩
  obtain ⟨p, hp, hf⟩ := lookup_known hm rfl
  have hsz : p.size = i.size := hf.2.2.2.2.2.2.2.1
  have hnum : i.id = 7 → p.type < 0x0c := by
    intro h7
    have key : ∀ obj, obj < 6 → ∀ q ∈ propTab obj, q.id = 7 → q.type < 0x0c := by decide
    obtain ⟨ho6, hmem, hpid⟩ := propertyDef_mem hp
    exact key _ ho6 p hmem (by omega)
  unfold readRoom at hlen
  rw [if_pos hk] at hlen
  rw [propRead_apply hk1 d l sb hr.apci, hr.obj, hr.pid, hr.count]
  unfold propRead
  rw [hp]
  dsimp only
  rw [hsz, if_neg (by rw [if_pos hk]; omega)]
  generalize count * i.size = n at *
  by_cases h7 : i.id = 7
  · rw [if_pos h7] at hlen
    rw [if_pos ⟨hk, hnum h7, h7⟩, if_neg]
    rw [Bool.and_eq_true, decide_eq_true_iff]
    intro hc
    have := hc.2
    unfold bufSize at this
    omega
  · rw [if_neg h7] at hlen
    rw [if_neg (fun h => h7 h.2.2), if_neg]
    rw [Bool.and_eq_true, decide_eq_true_iff]
    intro hc
    have := hc.2
    unfold bufSize at this
    omega

/-- **C106** (finding): reading the table property 23 of the association table reads four bytes of a constant
of two. -/
theorem C106_table_beyond (hk : W.kind ≠ .bcu1) (d : Dev) (t : Buf) (l : Nat) (sb : Buf)
    (hr : PropReadRequest t 2 23 1 1) : (processApci W d t l sb).1.undef = true := by
  obtain ⟨_, _, h3⟩ := start_eq hr (by decide)
  rw [propRead_apply hk d l sb hr.apci, hr.obj, hr.pid, hr.count, h3]
  have hp : propertyDef 2 23 = some ⟨23, 0x94, 0x00FF⟩ := by decide
  unfold propRead
  rw [hp]
  dsimp only
  have hsz : PropDef.size ⟨23, 0x94, 0x00FF⟩ = 4 := by decide
  have ho : PropDef.offset ⟨23, 0x94, 0x00FF⟩ = 0 := by decide
  have ha : PropDef.area ⟨23, 0x94, 0x00FF⟩ = .own := by decide
  rw [hsz, ho, ha, if_neg (by split <;> decide), if_neg (fun h => absurd h.2.2 (by decide)), if_neg]
  rw [Bool.and_eq_true]
  intro hc
  have hc1 : inArray 2 (((0 : Nat) : Int) + (((1 : Nat) : Int) - 1) * ((4 : Nat) : Int)) (1 * 4) = true := hc.1
  exact absurd hc1 (by decide)

/-! ## The hypotheses are met -/

/-- The description of the serial number by identifier, and of the second property of the device object by
index. -/
def exDesc : Buf := exTel [0x03#8, 0xd8#8, 0#8, 11#8, 0#8]
def exDescIndex : Buf := exTel [0x03#8, 0xd8#8, 0#8, 0#8, 1#8]
def exDescEnd : Buf := exTel [0x03#8, 0xd8#8, 0#8, 0#8, 11#8]
def exDescBad : Buf := exTel [0x03#8, 0xd8#8, 9#8, 0#8, 0#8]

theorem exDesc_req : DescRequest exDesc 0 11 0 := ⟨by decide, by decide, by decide, by decide⟩

example : DescResponse (processApci exWorld exDev exDesc 11 exSb).2.1 0
    ⟨0, 11, 0x16, 6, false, false, .memory true 0x38a⟩ 1 :=
  (C106_description (W := exWorld) (by decide) exDev exDesc 11 exSb
    ⟨0, 11, 0x16, 6, false, false, .memory true 0x38a⟩ (by decide) 0 exDesc_req).2.2

example : ((processApci exWorld exDev exDescIndex 11 exSb).2.1 9).toNat = 14 :=
  ((C106_description_by_index_partial (W := exWorld) (by decide) exDev exDescIndex 11 exSb 0 1 (by decide) (by decide)
    ⟨by decide, by decide, by decide, by decide⟩).2.2.1 _ rfl).pid

example : DescFailure (processApci exWorld exDev exDescEnd 11 exSb).2.1 0 0 11 :=
  (C106_description_by_index_partial (W := exWorld) (by decide) exDev exDescEnd 11 exSb 0 11 (by decide) (by decide)
    ⟨by decide, by decide, by decide, by decide⟩).2.2.2 (by decide)

example : (processApci exWorld exDev exDescBad 11 exSb).1.undef = true :=
  C106_index_unchecked (W := exWorld) (by decide) exDev exDescBad 11 exSb 9 0
    ⟨by decide, by decide, by decide, by decide⟩ (Or.inl (by decide))

/-- Reading the serial number. -/
example : PropResponse (processApci exWorld exDev exReadSerial 12 exSb).2.1 0 11 1 1
    [0x8a#8, 0x8b#8, 0x8c#8, 0x8d#8, 0x8e#8, 0x8f#8] :=
  (C106_read_partial (W := exWorld) (by decide) exDev exReadSerial 12 exSb
    ⟨0, 11, 0x16, 6, false, false, .memory true 0x38a⟩ (by decide) true 0x38a rfl 1 1
    ⟨by decide, by decide, by decide, by decide, by decide⟩ (by decide) (by decide) (by decide)).2.2

/-- Writing the serial number after its description has said that it cannot be written. -/
example : (processApci exWorld exDev exWrite11 18 exSb).1 = exDev :=
  (C106_write_bit (W := exWorld) (by decide) exDev exDev exDesc exWrite11 11 18 exSb exSb 0 11 0 1 1 (by decide)
    exDesc_req (by decide) ⟨by decide, by decide, by decide, by decide, by decide⟩).1

/-- The reference to the address table on System B has four bytes. -/
def exReadRef : Buf := exTel [0x03#8, 0xd5#8, 1#8, 7#8, 0x10#8, 1#8]

example : PropResponse (processApci exWorldB exDev exReadRef 12 exSb).2.1 1 7 1 1 [0#8, 0#8, 0x79#8, 0x78#8] :=
  (C106_read_partial (W := exWorldB) (by decide) exDev exReadRef 12 exSb
    ⟨1, 7, 4, 2, false, true, .memory true 0x378⟩ (by decide) true 0x378 rfl 1 1
    ⟨by decide, by decide, by decide, by decide, by decide⟩ (by decide) (by decide) (by decide)).2.2

/-- The object type of the association table. -/
def exReadType : Buf := exTel [0x03#8, 0xd5#8, 2#8, 1#8, 0x10#8, 1#8]

example : PropResponse (processApci exWorld exDev exReadType 12 exSb).2.1 2 1 1 1 [0#8, 2#8] :=
  (C106_read_constant_partial (W := exWorld) (by decide) exDev exReadType 12 exSb
    ⟨2, 1, 4, 2, false, false, .constant [0#8, 2#8]⟩ (by decide) _ rfl (by decide)
    ⟨by decide, by decide, by decide, by decide, by decide⟩).2.2

example : DescriptorResponse (processApci exWorld exDev (exTel [0x03#8, 0x00#8]) 8 exSb).2.1 0x0020 :=
  (C106_mask_version (W := exWorld) exDev _ 8 exSb (by decide) (by decide)).2.2

example : processApci exWorld exDev (exTel [0x03#8, 0x02#8]) 8 exSb = (exDev, exSb, false) :=
  C106_other_descriptor (W := exWorld) exDev _ 8 exSb (by decide) (by decide)

/-- Six elements of the serial number's neighbour, the service control, on System B. -/
def exRead8x6 : Buf := exTel [0x03#8, 0xd5#8, 0#8, 8#8, 0x60#8, 1#8]

example : (processApci exWorldB exDev exRead8x6 12 exSb).1.undef = true :=
  C106_systemb_overflow (W := exWorldB) rfl exDev exRead8x6 12 exSb
    ⟨0, 8, 4, 2, true, false, .memory true 0x386⟩ (by decide) 6 1
    ⟨by decide, by decide, by decide, by decide, by decide⟩ (by decide)

example : PropFailure (processApci exWorld exDev exRead8x6 12 exSb).2.1 0 8 :=
  (C106_read_long (W := exWorld) (by decide) exDev exRead8x6 12 exSb
    ⟨0, 8, 4, 2, true, false, .memory true 0x386⟩ (by decide) 6 1
    ⟨by decide, by decide, by decide, by decide, by decide⟩ (by decide)).2

end Verif.Dev
