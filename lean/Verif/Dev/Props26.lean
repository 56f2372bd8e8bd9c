import Verif.Dev.Spec26
import Verif.Dev.Props25

/-!
# C26: properties of the interface objects

The theorems about writable properties are named `_partial`: properties of several bytes that are not
numbers do not read back as written (`C26_generic_reversed`), and the first element and the number of
elements are not checked against the property (`C26_serial_overwritten`).
-/

namespace Verif.Dev

open Verif.Knx

variable {W : World}

/-! ## Helper lemmas -/

theorem start_eq {cmd : Word} {t : Buf} {obj pid count start : Nat}
    (h : PropRequest cmd t obj pid count start) (hs : start < 256) :
    (t 10).toNat % 16 = 0 ∧ (t 11).toNat = start ∧ ((t 10).toNat % 16 * 16 ||| (t 11).toNat) = start := by
  have h1 := h.start
  have h2 : (t 10).toNat % 16 = 0 := by omega
  refine ⟨h2, by omega, ?_⟩
  rw [h2, Nat.zero_mul, Nat.zero_or]
  omega

theorem propWrite_apply (hk : W.kind ≠ .bcu1) (d : Dev) {t : Buf} (l : Nat) (sb : Buf)
    (h : apciCommand t = 0x3d7#16) :
    processApci W d t l sb =
      ((propWrite W d t l (t 8).toNat (t 9).toNat ((t 10).toNat / 16)
          ((t 10).toNat % 16 * 16 ||| (t 11).toNat) (upd (propHeader sb 0x65#8 0x3d6#16 t) 11 (t 11))).1,
       if (propWrite W d t l (t 8).toNat (t 9).toNat ((t 10).toNat / 16)
          ((t 10).toNat % 16 * 16 ||| (t 11).toNat) (upd (propHeader sb 0x65#8 0x3d6#16 t) 11 (t 11))).2.2
       then (propWrite W d t l (t 8).toNat (t 9).toNat ((t 10).toNat / 16)
          ((t 10).toNat % 16 * 16 ||| (t 11).toNat) (upd (propHeader sb 0x65#8 0x3d6#16 t) 11 (t 11))).2.1
       else upd (propWrite W d t l (t 8).toNat (t 9).toNat ((t 10).toNat / 16)
          ((t 10).toNat % 16 * 16 ||| (t 11).toNat) (upd (propHeader sb 0x65#8 0x3d6#16 t) 11 (t 11))).2.1
          10 0#8, true) := by
  unfold processApci
  rw [if_neg hk]
  unfold bcu2Apci
  rw [h, if_pos (Or.inr rfl)]
  dsimp only
  rw [if_neg (by decide)]

theorem propRead_apply (hk : W.kind ≠ .bcu1) (d : Dev) {t : Buf} (l : Nat) (sb : Buf)
    (h : apciCommand t = 0x3d5#16) :
    processApci W d t l sb =
      ((propRead W d (t 8).toNat (t 9).toNat ((t 10).toNat / 16)
          ((t 10).toNat % 16 * 16 ||| (t 11).toNat) (upd (propHeader sb 0x65#8 0x3d6#16 t) 11 (t 11))).1,
       if (propRead W d (t 8).toNat (t 9).toNat ((t 10).toNat / 16)
          ((t 10).toNat % 16 * 16 ||| (t 11).toNat) (upd (propHeader sb 0x65#8 0x3d6#16 t) 11 (t 11))).2.2
       then (propRead W d (t 8).toNat (t 9).toNat ((t 10).toNat / 16)
          ((t 10).toNat % 16 * 16 ||| (t 11).toNat) (upd (propHeader sb 0x65#8 0x3d6#16 t) 11 (t 11))).2.1
       else upd (propRead W d (t 8).toNat (t 9).toNat ((t 10).toNat / 16)
          ((t 10).toNat % 16 * 16 ||| (t 11).toNat) (upd (propHeader sb 0x65#8 0x3d6#16 t) 11 (t 11))).2.1
          10 0#8, true) := by
  unfold processApci
  rw [if_neg hk]
  unfold bcu2Apci
  rw [h, if_pos (Or.inl rfl)]
  dsimp only
  rw [if_pos rfl]

/-- The table of the code agrees with the places of the specification. -/
theorem places_def : ∀ x ∈ places, ∃ p, propertyDef x.1 x.2.1 = some p ∧ p.writable = true ∧ p.type ≠ 0 ∧
    p.area = (if x.2.2.inEe then .ee else .ram) ∧ p.isEe = x.2.2.inEe ∧ p.offset = x.2.2.offset ∧
    p.size = x.2.2.size ∧ 1 ≤ p.size ∧ x.2.1 ≠ 7 ∧
    (p.type < 0x0c ↔ (x.1 = 0 ∧ x.2.1 = 8)) ∧ (x.2.1 = 14 → p.size = 1) := by
  have key : places.all (fun x => match propertyDef x.1 x.2.1 with
      | none => false
      | some p => decide (p.writable = true ∧ p.type ≠ 0 ∧
        p.area = (if x.2.2.inEe then .ee else .ram) ∧ p.isEe = x.2.2.inEe ∧ p.offset = x.2.2.offset ∧
        p.size = x.2.2.size ∧ 1 ≤ p.size ∧ x.2.1 ≠ 7 ∧
        (p.type < 0x0c ↔ (x.1 = 0 ∧ x.2.1 = 8)) ∧ (x.2.1 = 14 → p.size = 1))) = true := by decide
  intro x hx
  have := List.all_eq_true.1 key x hx
  split at this
  · cases this
  · rename_i p hp
    exact ⟨p, hp, of_decide_eq_true this⟩

/-- How a property is stored: the code copies backwards, but for the memory control blocks on System B. -/
def copyOf (W : World) (pid : Nat) : (Nat → Byte) → Nat → (Nat → Byte) → Nat → Nat → (Nat → Byte) :=
  if W.kind = .systemb ∧ pid = 27 then blit else revBlit

theorem copyOf_out (pid : Nat) (dst : Nat → Byte) (a : Nat) (src : Nat → Byte) (o n i : Nat)
    (h : i < a ∨ a + n ≤ i) : copyOf W pid dst a src o n i = dst i := by
  unfold copyOf
  split
  · unfold blit; rw [if_neg (by omega)]
  · unfold revBlit; rw [if_neg (by omega)]

/-- Copying there and back. -/
theorem copyOf_back (pid : Nat) (dst dst' : Nat → Byte) (a b : Nat) (src : Nat → Byte) (o n i : Nat)
    (h : i < n) : copyOf W pid dst' b (copyOf W pid dst a src o n) a n (b + i) = src (o + i) := by
  unfold copyOf
  split
  · unfold blit
    rw [if_pos (by omega), if_pos (by omega)]
    congr 1
    omega
  · unfold revBlit
    rw [if_pos (by omega), if_pos (by omega)]
    congr 1
    omega

theorem upd_lt (b : Buf) (i j : Nat) (v : Byte) (h : j ≠ i) : upd b i v j = b j := upd_ne _ _ _ _ h

/-- The head of the response. -/
theorem response_build {t : Buf} {obj pid count start : Nat} {cmd : Word}
    (h : PropRequest cmd t obj pid count start) (sb : Buf) (b : Buf) (n : Nat) (hn : n ≤ 100)
    (hb : ∀ j, j < 12 → b j = upd (propHeader sb 0x65#8 0x3d6#16 t) 11 (t 11) j)
    (data : List Byte) (hl : data.length = n) (hd : ∀ i, i < n → b (12 + i) = data.getD i 0#8) :
    PropResponse (addLen b n) obj pid count start data := by
  have h5 : b 5 = 0x65#8 := (hb 5 (by decide)).trans rfl
  have hne : ∀ j, j ≠ 5 → addLen b n j = b j := fun j hj => upd_ne _ _ _ _ hj
  constructor
  · show (upd b 5 (b 5 + BitVec.ofNat 8 n) 5).toNat = _
    rw [upd_same, h5, BitVec.toNat_add, BitVec.toNat_ofNat, hl]
    show (0x65 + n % 256) % 256 = _
    omega
  · rw [hne _ (by decide), hb _ (by decide)]; rfl
  · rw [hne _ (by decide), hb _ (by decide)]; rfl
  · rw [hne _ (by decide), hb _ (by decide)]; exact h.obj
  · rw [hne _ (by decide), hb _ (by decide)]; exact h.pid
  · rw [hne _ (by decide), hb _ (by decide)]; exact h.count
  · rw [hne _ (by decide), hb _ (by decide), hne _ (by decide), hb _ (by decide)]; exact h.start
  · intro i hi
    rw [hne _ (by omega)]
    exact hd i (by omega)

theorem memOf_area (d : Dev) (p : PropDef) (q : Place) (h : p.area = (if q.inEe then .ee else .ram)) :
    areaBytes d p = memOf d q := by
  unfold areaBytes memOf
  rw [h]
  cases q.inEe <;> rfl

/-- The device after a property has been written. -/
def stored (d : Dev) (q : Place) (f : Nat → Byte) : Dev :=
  if q.inEe then { d with ee := f, eeModified := true } else { d with ram := f }

theorem propWrite_eq {d : Dev} {t : Buf} {l obj pid count start : Nat} {sb : Buf} {q : Place}
    (hq : (obj, pid, q) ∈ places) (hs : 1 ≤ start)
    (hroom : q.first start + count * q.size ≤ memSize W q) (hlen : count * q.size ≤ 11) :
    propWrite W d t l obj pid count start sb =
      (stored d q (copyOf W pid (memOf d q) (q.first start) t 12 (count * q.size)),
       addLen (copyOf W pid sb 12 (copyOf W pid (memOf d q) (q.first start) t 12 (count * q.size))
        (q.first start) (count * q.size)) (count * q.size), true) := by
  obtain ⟨p, hp, hw, ht, ha, hee, ho, hsz, _, _, _, _⟩ := places_def _ hq
  dsimp only at hp ha hee ho hsz
  unfold propWrite
  rw [hp]
  dsimp only
  rw [hw, if_neg (by decide), if_neg ht, hsz, ho]
  have hfirst : (((q.offset : Int) + ((start : Int) - 1) * q.size)).toNat = q.first start := by
    unfold Place.first
    have h1 : (start : Int) - 1 = ((start - 1 : Nat) : Int) := by omega
    rw [h1, ← Int.natCast_mul, ← Int.natCast_add, Int.toNat_natCast]
  have hnn : 0 ≤ (q.offset : Int) + ((start : Int) - 1) * q.size := by
    have h1 : (start : Int) - 1 = ((start - 1 : Nat) : Int) := by omega
    rw [h1, ← Int.natCast_mul, ← Int.natCast_add]
    exact Int.natCast_nonneg _
  have hsize : areaSize W.kind p.area = memSize W q := by
    rw [ha]
    unfold memSize
    cases q.inEe <;> rfl
  have hin : (inArray (areaSize W.kind p.area) ((q.offset : Int) + ((start : Int) - 1) * q.size)
      (count * q.size) && decide (12 + count * q.size ≤ bufSize)) = true := by
    rw [Bool.and_eq_true]
    constructor
    · unfold inArray
      rw [decide_eq_true_iff, hsize]
      right
      exact ⟨hnn, by omega⟩
    · rw [decide_eq_true_iff]; unfold bufSize; omega
  rw [if_pos hin, hfirst, memOf_area d p q ha]
  have hset : ∀ f, (if p.isEe then { setArea d p f with eeModified := true } else setArea d p f) =
      stored d q f := by
    intro f
    unfold setArea stored
    rw [ha, hee]
    cases q.inEe <;> rfl
  have hareas : ∀ f, areaBytes (stored d q f) p = f := by
    intro f
    rw [memOf_area _ p q ha]
    unfold memOf stored
    cases q.inEe <;> rfl
  rw [hset, hareas]
  rfl

theorem propRead_eq {d : Dev} {obj pid count start : Nat} {sb : Buf} {q : Place}
    (hq : (obj, pid, q) ∈ places) (hs : 1 ≤ start)
    (hroom : q.first start + count * q.size ≤ memSize W q) (hlen : count * q.size ≤ 10) :
    propRead W d obj pid count start sb =
      (d, addLen ((if obj = 0 ∧ pid = 8 then revBlit else blit) sb 12 (memOf d q) (q.first start)
        (count * q.size)) (count * q.size), true) := by
  obtain ⟨p, hp, hw, ht, ha, hee, ho, hsz, _, h7, hty, _⟩ := places_def _ hq
  dsimp only at hp ha hee ho hsz h7 hty
  unfold propRead
  rw [hp]
  dsimp only
  rw [hsz, ho, if_neg (by split <;> omega), if_neg (fun h => h7 h.2.2)]
  have hfirst : (((q.offset : Int) + ((start : Int) - 1) * q.size)).toNat = q.first start := by
    unfold Place.first
    have h1 : (start : Int) - 1 = ((start - 1 : Nat) : Int) := by omega
    rw [h1, ← Int.natCast_mul, ← Int.natCast_add, Int.toNat_natCast]
  have hnn : 0 ≤ (q.offset : Int) + ((start : Int) - 1) * q.size := by
    have h1 : (start : Int) - 1 = ((start - 1 : Nat) : Int) := by omega
    rw [h1, ← Int.natCast_mul, ← Int.natCast_add]
    exact Int.natCast_nonneg _
  have hsize : areaSize W.kind p.area = memSize W q := by
    rw [ha]
    unfold memSize
    cases q.inEe <;> rfl
  have hin : (inArray (areaSize W.kind p.area) ((q.offset : Int) + ((start : Int) - 1) * q.size)
      (count * q.size) && decide (12 + count * q.size ≤ bufSize)) = true := by
    rw [Bool.and_eq_true]
    constructor
    · unfold inArray
      rw [decide_eq_true_iff, hsize]
      right
      exact ⟨hnn, by omega⟩
    · rw [decide_eq_true_iff]; unfold bufSize; omega
  rw [if_pos hin, hfirst, memOf_area d p q ha]
  by_cases h8 : obj = 0 ∧ pid = 8
  · rw [if_pos (hty.2 h8), if_pos h8]
  · rw [if_neg (fun h => h8 (hty.1 h)), if_neg h8]

/-! ## The property -/

/-- C26: writing a property that is unknown or read-only changes nothing and is reported as failed. -/
theorem C26_refused (hk : W.kind ≠ .bcu1) (d : Dev) (t : Buf) (l : Nat) (sb : Buf)
    (obj pid count start : Nat) (hr : PropWriteRequest t obj pid count start) (hw : ¬ Writable obj pid) :
    (processApci W d t l sb).1 = d ∧ (processApci W d t l sb).2.2 = true ∧
    PropFailure (processApci W d t l sb).2.1 obj pid := by
  have hno : ∀ count start sb', propWrite W d t l obj pid count start sb' = (d, sb', false) := by
    intro count start sb'
    unfold propWrite
    cases hp : propertyDef obj pid with
    | none => rfl
    | some p =>
      dsimp only
      cases hwr : p.writable with
      | false => rw [if_pos (by decide)]
      | true =>
        exfalso
        obtain ⟨ho, hm, hid⟩ := propertyDef_mem hp
        have hall : ∀ obj, obj < 6 → ∀ p ∈ propTab obj, p.writable = true →
            (obj, p.id) ∈ writables ∨ p.id = 5 := by decide
        rcases hall obj ho p hm hwr with h | h
        · exact hw (Or.inl (hid ▸ h))
        · exact hw (Or.inr ⟨ho, hid ▸ h⟩)
  rw [propWrite_apply hk d l sb hr.apci, hr.obj, hr.pid, hno]
  refine ⟨rfl, rfl, rfl, rfl, rfl, ?_, ?_, ?_⟩
  · exact hr.obj
  · exact hr.pid
  · show (upd (upd (propHeader sb 0x65#8 0x3d6#16 t) 11 (t 11)) 10 0#8 10).toNat / 16 = 0
    rw [upd_same]
    rfl

/-- Reading never changes anything (start and count may even be wrong; then, at worst, the code reads
outside its memory). -/
theorem C26_read_changes_nothing (hk : W.kind ≠ .bcu1) (d : Dev) (t : Buf) (l : Nat) (sb : Buf)
    (obj pid count start : Nat) (hr : PropReadRequest t obj pid count start) :
    (processApci W d t l sb).1 = d ∨ (processApci W d t l sb).1 = { d with undef := true } := by
  rw [propRead_apply hk d l sb hr.apci]
  exact propRead_dev d _ _ _ _ _

/-- C26: reading an unknown property is reported as failed. -/
theorem C26_read_unknown (hk : W.kind ≠ .bcu1) (d : Dev) (t : Buf) (l : Nat) (sb : Buf)
    (obj pid count start : Nat) (hr : PropReadRequest t obj pid count start)
    (hu : ∀ p ∈ propTab obj, p.id ≠ pid) :
    (processApci W d t l sb).1 = d ∧ PropFailure (processApci W d t l sb).2.1 obj pid := by
  have hno : propertyDef obj pid = none := by
    unfold propertyDef
    rw [List.find?_eq_none]
    intro p hp h
    exact hu p hp (of_decide_eq_true h)
  have hrd : ∀ count start sb', propRead W d obj pid count start sb' = (d, sb', false) := by
    intro count start sb'
    unfold propRead
    rw [hno]
  rw [propRead_apply hk d l sb hr.apci, hr.obj, hr.pid, hrd]
  refine ⟨rfl, rfl, rfl, rfl, ?_, ?_, ?_⟩
  · exact hr.obj
  · exact hr.pid
  · show (upd (upd (propHeader sb 0x65#8 0x3d6#16 t) 11 (t 11)) 10 0#8 10).toNat / 16 = 0
    rw [upd_same]
    rfl

/-- C26 (partial): a write changes only the bytes of the written elements (and marks the EEPROM as
modified if they lie in it), and the response repeats what was written.  Missing: elements that lie
outside the memory; nothing says that the elements lie inside the property, see
`C26_serial_overwritten`. -/
theorem C26_write_partial (hk : W.kind ≠ .bcu1) (d : Dev) (t : Buf) (l : Nat) (sb : Buf)
    (obj pid count start : Nat) (q : Place) (hq : (obj, pid, q) ∈ places)
    (hr : PropWriteRequest t obj pid count start) (hs : 1 ≤ start ∧ start < 256)
    (hroom : q.first start + count * q.size ≤ memSize W q) (hlen : count * q.size ≤ 11) :
    (∃ f : Nat → Byte, (processApci W d t l sb).1 = stored d q f ∧
      (∀ i, i < q.first start ∨ q.first start + count * q.size ≤ i → f i = memOf d q i) ∧
      ∀ i, i < count * q.size → f (q.first start + i) =
        t (12 + if W.kind = .systemb ∧ pid = 27 then i else count * q.size - 1 - i)) ∧
    (processApci W d t l sb).2.2 = true ∧
    PropResponse (processApci W d t l sb).2.1 obj pid count start
      ((List.range (count * q.size)).map (fun i => t (12 + i))) := by
  obtain ⟨_, _, h3⟩ := start_eq hr hs.2
  rw [propWrite_apply hk d l sb hr.apci, hr.obj, hr.pid, hr.count, h3,
    propWrite_eq hq hs.1 hroom hlen]
  refine ⟨⟨_, rfl, fun i hi => copyOf_out _ _ _ _ _ _ _ hi, fun i hi => ?_⟩, rfl, ?_⟩
  · unfold copyOf
    split
    · rename_i h
      unfold blit
      rw [if_pos (by omega)]
      congr 1
      omega
    · rename_i h
      unfold revBlit
      rw [if_pos (by omega)]
      congr 1
      omega
  · refine response_build hr sb _ _ (by omega) (fun j hj => copyOf_out _ _ _ _ _ _ _ (by omega)) _
      (by simp) (fun i hi => ?_)
    rw [copyOf_back _ _ _ _ _ _ _ _ _ hi, List.getD_eq_getElem?_getD, List.getElem?_map,
      List.getElem?_range hi]
    rfl

theorem memOf_stored (d : Dev) (q : Place) (f : Nat → Byte) : memOf (stored d q f) q = f := by
  unfold memOf stored
  cases q.inEe <;> rfl

/-- What a read returns after a write. -/
theorem read_after_write (hk : W.kind ≠ .bcu1) (d : Dev) (t t' : Buf) (l l' : Nat) (sb sb' : Buf)
    (obj pid count start : Nat) (q : Place) (hq : (obj, pid, q) ∈ places)
    (hr : PropWriteRequest t obj pid count start) (hr' : PropReadRequest t' obj pid count start)
    (hs : 1 ≤ start ∧ start < 256) (hroom : q.first start + count * q.size ≤ memSize W q)
    (hlen : count * q.size ≤ 10) :
    PropResponse (processApci W (processApci W d t l sb).1 t' l' sb').2.1 obj pid count start
      ((List.range (count * q.size)).map (fun i => t (12 +
        if (obj = 0 ∧ pid = 8) ∨ (W.kind = .systemb ∧ pid = 27) then i else count * q.size - 1 - i))) := by
  obtain ⟨_, _, h3⟩ := start_eq hr hs.2
  obtain ⟨_, _, h3'⟩ := start_eq hr' hs.2
  rw [propRead_apply hk _ l' sb' hr'.apci, hr'.obj, hr'.pid, hr'.count, h3',
    propRead_eq hq hs.1 hroom hlen, propWrite_apply hk d l sb hr.apci, hr.obj, hr.pid, hr.count, h3,
    propWrite_eq hq hs.1 hroom (by omega), memOf_stored]
  refine response_build hr' sb' _ _ (by omega) (fun j hj => ?_) _ (by simp) (fun i hi => ?_)
  · split
    · unfold revBlit; rw [if_neg (by omega)]
    · unfold blit; rw [if_neg (by omega)]
  · rw [List.getD_eq_getElem?_getD, List.getElem?_map, List.getElem?_range hi]
    show _ = t (12 + if (obj = 0 ∧ pid = 8) ∨ (W.kind = .systemb ∧ pid = 27) then i
      else count * q.size - 1 - i)
    generalize count * q.size = n at *
    generalize q.first start = a at *
    by_cases h8 : obj = 0 ∧ pid = 8
    · have h27 : ¬ (W.kind = .systemb ∧ pid = 27) := fun h => by omega
      rw [if_pos h8, if_pos (Or.inl h8)]
      unfold copyOf
      rw [if_neg h27]
      unfold revBlit
      rw [if_pos (by omega), if_pos (by omega)]
      congr 1
      omega
    · rw [if_neg h8]
      unfold copyOf
      by_cases h27 : W.kind = .systemb ∧ pid = 27
      · rw [if_pos h27, if_pos (Or.inr h27)]
        unfold blit
        rw [if_pos (by omega), if_pos (by omega)]
        congr 1
        omega
      · rw [if_neg h27, if_neg (fun h => h.elim h8 h27)]
        unfold blit revBlit
        rw [if_pos (by omega), if_pos (by omega)]
        congr 1
        omega

/-- C26 (partial): what was written is read back, for the properties that are numbers, a single byte, and
the memory control blocks of System B.  Missing: the other writable properties
(`C26_generic_reversed_partial`), the table property 23 (`C26_table_constant`), elements that lie outside the
memory, and elements from 256 on (`C26_start_high`). -/
theorem C26_round_trip_partial (hk : W.kind ≠ .bcu1) (d : Dev) (t t' : Buf) (l l' : Nat) (sb sb' : Buf)
    (obj pid count start : Nat) (q : Place) (hq : (obj, pid, q) ∈ places)
    (hb : ReadsBack W obj pid ∨ count * q.size ≤ 1)
    (hr : PropWriteRequest t obj pid count start) (hr' : PropReadRequest t' obj pid count start)
    (hs : 1 ≤ start ∧ start < 256) (hroom : q.first start + count * q.size ≤ memSize W q)
    (hlen : count * q.size ≤ 10) :
    PropResponse (processApci W (processApci W d t l sb).1 t' l' sb').2.1 obj pid count start
      ((List.range (count * q.size)).map (fun i => t (12 + i))) := by
  have h := read_after_write hk d t t' l l' sb sb' obj pid count start q hq hr hr' hs hroom hlen
  have he : ((List.range (count * q.size)).map (fun i => t (12 +
        if (obj = 0 ∧ pid = 8) ∨ (W.kind = .systemb ∧ pid = 27) then i else count * q.size - 1 - i))) =
      ((List.range (count * q.size)).map (fun i => t (12 + i))) := by
    apply List.map_congr_left
    intro i hi
    rw [List.mem_range] at hi
    split
    · rfl
    · rename_i hn
      rcases hb with hb | hb
      · exact absurd hb hn
      · congr 1
        omega
  rw [← he]
  exact h

/-- C26 (finding): every other writable property of several bytes reads back in the reverse order: the
write copies backwards, the read of a type from 0x0c on does not. -/
theorem C26_generic_reversed_partial (hk : W.kind ≠ .bcu1) (d : Dev) (t t' : Buf) (l l' : Nat)
    (sb sb' : Buf) (obj pid count start : Nat) (q : Place) (hq : (obj, pid, q) ∈ places)
    (hb : ¬ ReadsBack W obj pid)
    (hr : PropWriteRequest t obj pid count start) (hr' : PropReadRequest t' obj pid count start)
    (hs : 1 ≤ start ∧ start < 256) (hroom : q.first start + count * q.size ≤ memSize W q)
    (hlen : count * q.size ≤ 10) :
    PropResponse (processApci W (processApci W d t l sb).1 t' l' sb').2.1 obj pid count start
      ((List.range (count * q.size)).map (fun i => t (12 + i))).reverse := by
  have h := read_after_write hk d t t' l l' sb sb' obj pid count start q hq hr hr' hs hroom hlen
  have he : ((List.range (count * q.size)).map (fun i => t (12 +
        if (obj = 0 ∧ pid = 8) ∨ (W.kind = .systemb ∧ pid = 27) then i else count * q.size - 1 - i))) =
      ((List.range (count * q.size)).map (fun i => t (12 + i))).reverse := by
    apply List.ext_getElem
    · simp
    · intro i h1 h2
      have hb' : ¬ ((obj = 0 ∧ pid = 8) ∨ (W.kind = .systemb ∧ pid = 27)) := hb
      simp [hb']
  rw [← he]
  exact h

/-! ## Findings -/

/-- A telegram buffer. -/
def exSb : Buf := fun _ => 0#8

/-- Write the element 3 of the service control (0, 8), which has one element. -/
def exSerial : Buf := exTel [0x03#8, 0xd7#8, 0#8, 8#8, 0x10#8, 3#8, 0x12#8, 0x34#8]

/-- Read the serial number (0, 11). -/
def exReadSerial : Buf := exTel [0x03#8, 0xd5#8, 0#8, 11#8, 0x10#8, 1#8]

/-- C26 (finding): the first element is not checked.  The serial number is read-only, yet writing the
"third element" of the service control changes it. -/
theorem C26_serial_overwritten :
    PropWriteRequest exSerial 0 8 1 3 ∧ PropReadRequest exReadSerial 0 11 1 1 ∧ ¬ Writable 0 11 ∧
    PropResponse (processApci exWorld exDev exReadSerial 12 exSb).2.1 0 11 1 1
      [0x8a#8, 0x8b#8, 0x8c#8, 0x8d#8, 0x8e#8, 0x8f#8] ∧
    PropResponse (processApci exWorld (processApci exWorld exDev exSerial 14 exSb).1
        exReadSerial 12 exSb).2.1 0 11 1 1
      [0x34#8, 0x12#8, 0x8c#8, 0x8d#8, 0x8e#8, 0x8f#8] := by
  refine ⟨⟨by decide, by decide, by decide, by decide, by decide⟩,
    ⟨by decide, by decide, by decide, by decide, by decide⟩, ?_, ?_, ?_⟩
  · rintro (h | h)
    · revert h; decide
    · exact absurd h.2 (by decide)
  · exact ⟨by decide, by decide, by decide, by decide, by decide, by decide, by decide, by decide⟩
  · exact ⟨by decide, by decide, by decide, by decide, by decide, by decide, by decide, by decide⟩

/-- Write the table property (2, 23). -/
def exTable : Buf := exTel [0x03#8, 0xd7#8, 2#8, 23#8, 0x10#8, 1#8, 0x12#8, 0x34#8]

/-- C26 (finding): the table property (23) of the association table is marked as writable, but its value
is a constant of the program: a write to it writes into the program memory. -/
theorem C26_table_constant :
    PropWriteRequest exTable 2 23 1 1 ∧ exDev.undef = false ∧
    (processApci exWorld exDev exTable 14 exSb).1.undef = true :=
  ⟨⟨by decide, by decide, by decide, by decide, by decide⟩, by decide, by decide⟩

/-- Write the element 256 of the device control (0, 14), which has one element. -/
def exHigh : Buf := exTel [0x03#8, 0xd7#8, 0#8, 14#8, 0x11#8, 0#8, 0x55#8]

/-- C26 (finding): the upper four bits of the first element are shifted by four bits instead of eight:
the element 256 is taken for the element 16. -/
theorem C26_start_high :
    PropWriteRequest exHigh 0 14 1 256 ∧
    (processApci exWorld exDev exHigh 13 exSb).1.ram (0x62 + 15) = 0x55#8 ∧
    exDev.ram (0x62 + 15) ≠ 0x55#8 :=
  ⟨⟨by decide, by decide, by decide, by decide, by decide⟩, by decide, by decide⟩

/-! ## The hypotheses are met -/

/-- Write and read the service control. -/
def exWrite8 : Buf := exTel [0x03#8, 0xd7#8, 0#8, 8#8, 0x10#8, 1#8, 0x12#8, 0x34#8]
def exRead8 : Buf := exTel [0x03#8, 0xd5#8, 0#8, 8#8, 0x10#8, 1#8]

example : PropResponse (processApci exWorld (processApci exWorld exDev exWrite8 14 exSb).1
    exRead8 12 exSb).2.1 0 8 1 1 [0x12#8, 0x34#8] :=
  C26_round_trip_partial (by decide) exDev exWrite8 exRead8 14 12 exSb exSb 0 8 1 1 ⟨true, 0x386, 2⟩
    (by decide) (Or.inl (Or.inl ⟨rfl, rfl⟩)) ⟨by decide, by decide, by decide, by decide, by decide⟩
    ⟨by decide, by decide, by decide, by decide, by decide⟩ (by decide) (by decide) (by decide)

example : ∃ f, (processApci exWorld exDev exWrite8 14 exSb).1 = stored exDev ⟨true, 0x386, 2⟩ f ∧
    f 0x386 = 0x34#8 ∧ f 0x387 = 0x12#8 ∧ f 0x388 = 0x88#8 := by
  obtain ⟨f, h1, h2, h3⟩ := (C26_write_partial (W := exWorld) (by decide) exDev exWrite8 14 exSb 0 8 1 1
    ⟨true, 0x386, 2⟩ (by decide) ⟨by decide, by decide, by decide, by decide, by decide⟩ (by decide)
    (by decide) (by decide)).1
  exact ⟨f, h1, h3 0 (by decide), h3 1 (by decide), h2 0x388 (Or.inr (by decide))⟩

/-- Write and read the hardware type (0, 78). -/
def exWrite78 : Buf := exTel [0x03#8, 0xd7#8, 0#8, 78#8, 0x10#8, 1#8, 1#8, 2#8, 3#8, 4#8, 5#8, 6#8]
def exRead78 : Buf := exTel [0x03#8, 0xd5#8, 0#8, 78#8, 0x10#8, 1#8]

example : PropResponse (processApci exWorld (processApci exWorld exDev exWrite78 18 exSb).1
    exRead78 12 exSb).2.1 0 78 1 1 [6#8, 5#8, 4#8, 3#8, 2#8, 1#8] :=
  C26_generic_reversed_partial (by decide) exDev exWrite78 exRead78 18 12 exSb exSb 0 78 1 1
    ⟨true, 0x390, 6⟩ (by decide)
    (fun h => h.elim (fun h => absurd h.2 (by decide)) (fun h => absurd h.2 (by decide)))
    ⟨by decide, by decide, by decide, by decide, by decide⟩
    ⟨by decide, by decide, by decide, by decide, by decide⟩ (by decide) (by decide) (by decide)

/-- Write the serial number. -/
def exWrite11 : Buf := exTel [0x03#8, 0xd7#8, 0#8, 11#8, 0x10#8, 1#8, 1#8, 2#8, 3#8, 4#8, 5#8, 6#8]

example : (processApci exWorld exDev exWrite11 18 exSb).1 = exDev ∧
    PropFailure (processApci exWorld exDev exWrite11 18 exSb).2.1 0 11 :=
  have h := C26_refused (W := exWorld) (by decide) exDev exWrite11 18 exSb 0 11 1 1
    ⟨by decide, by decide, by decide, by decide, by decide⟩
    (fun h => h.elim (by decide) (fun h => absurd h.2 (by decide)))
  ⟨h.1, h.2.2⟩

/-- Read the unknown property 99. -/
def exRead99 : Buf := exTel [0x03#8, 0xd5#8, 0#8, 99#8, 0x10#8, 1#8]

example : PropFailure (processApci exWorld exDev exRead99 12 exSb).2.1 0 99 :=
  (C26_read_unknown (W := exWorld) (by decide) exDev exRead99 12 exSb 0 99 1 1
    ⟨by decide, by decide, by decide, by decide, by decide⟩ (by decide)).2

example : (processApci exWorld exDev exRead8 12 exSb).1 = exDev ∨
    (processApci exWorld exDev exRead8 12 exSb).1 = { exDev with undef := true } :=
  C26_read_changes_nothing (by decide) exDev exRead8 12 exSb 0 8 1 1
    ⟨by decide, by decide, by decide, by decide, by decide⟩

end Verif.Dev
