import Verif.Dev.MemSpec

/-!
# Lemmas about the memory services
-/

namespace Verif.Dev

open Verif.MemMap (Ideal)

variable {W : World}

def Rep (W : World) (d : Dev) (t : Ideal) : Prop :=
  match d.mapper with
  | none => ∀ v, t.mapped v = false
  | some s => (∀ k, W.E.fault k = none) ∧ MemMap.AreaOk W.E W.mc ∧ W.mc.autoAddPage = false ∧
      MemMap.Reached W.E W.mc s t

/-! Histories of the virtual memory -/

theorem disciplined_snoc (auto : Bool) (a : Int) (x : Byte) (ops : List MemMap.Op) :
    ∀ (t : Ideal) (pe tn : Bool), MemMap.Disciplined auto t pe tn ops →
      (MemMap.Valid a → (Ideal.run auto t ops).1.mapped (a.toNat / 256) = true) →
      MemMap.Disciplined auto t pe tn (ops ++ [.write a x]) := by
  induction ops with
  | nil => intro t pe tn _ hm; exact ⟨Or.inr hm, trivial⟩
  | cons op ops ih =>
    intro t pe tn hd hm
    cases op with
    | write b y => exact ⟨hd.1, ih _ _ _ hd.2 hm⟩
    | read b f => exact ih _ _ _ hd hm
    | addRange b len => exact ⟨hd.1, hd.2.1, ih _ _ _ hd.2.2 hm⟩
    | flush => exact ih _ _ _ hd hm
    | restart => exact ⟨hd.1, hd.2.1, ih _ _ _ hd.2.2 hm⟩

theorem run_snoc (E : Iap.Env) (c : MemMap.Cfg) (op : MemMap.Op) (ops : List MemMap.Op) :
    ∀ s, (MemMap.run E c s (ops ++ [op])).1 = (MemMap.step E c (MemMap.run E c s ops).1 op).1 := by
  induction ops with
  | nil => intro s; rfl
  | cons o ops ih => intro s; exact ih _

theorem ideal_run_snoc (auto : Bool) (op : MemMap.Op) (ops : List MemMap.Op) :
    ∀ t, (Ideal.run auto t (ops ++ [op])).1 = ((Ideal.run auto t ops).1.step auto op).1 := by
  induction ops with
  | nil => intro s; rfl
  | cons o ops ih => intro s; exact ih _

theorem reached_write {E : Iap.Env} {c : MemMap.Cfg} {s : MemMap.St} {t : Ideal}
    (h : MemMap.Reached E c s t) (a : Int) (x : Byte)
    (hm : MemMap.Valid a → t.mapped (a.toNat / 256) = true) :
    MemMap.Reached E c (MemMap.writeMem E c s a x).1 (t.step c.autoAddPage (.write a x)).1 := by
  obtain ⟨f, ops, hf, hd, rfl, rfl⟩ := h
  refine ⟨f, ops ++ [.write a x], hf, disciplined_snoc _ _ _ _ _ _ _ hd hm, ?_, ?_⟩
  · rw [run_snoc]; rfl
  · rw [ideal_run_snoc]

/-- The address is in a mapped page of `t`. -/
def Mp (t : Ideal) (a : Nat) : Prop := a < 0x10000 ∧ t.mapped (a / 256) = true

instance (t : Ideal) (a : Nat) : Decidable (Mp t a) := by unfold Mp; infer_instance

def EeR (k : Kind) (a : Nat) : Prop := k.eeStart ≤ a ∧ a < k.eeStart + k.eeSize
def RamR (k : Kind) (a : Nat) : Prop := k.ramStart ≤ a ∧ a < k.ramStart + k.ramSize

instance (k : Kind) (a : Nat) : Decidable (EeR k a) := by unfold EeR; infer_instance
instance (k : Kind) (a : Nat) : Decidable (RamR k a) := by unfold RamR; infer_instance

def Present (W : World) (t : Ideal) (a : Nat) : Prop := Mp t a ∨ EeR W.kind a ∨ RamR W.kind a

def view (W : World) (t : Ideal) (d : Dev) (a : Nat) : Option Byte :=
  if Mp t a then some (t.val a)
  else if EeR W.kind a then some (d.ee (a - W.kind.eeStart))
  else if RamR W.kind a then
    some (if a - W.kind.ramStart = 0x60 then d.status else d.ram (a - W.kind.ramStart))
  else none

/-- No mapped page hides EEPROM or RAM. -/
def Sep (W : World) (t : Ideal) : Prop := ∀ a, EeR W.kind a ∨ RamR W.kind a → ¬ Mp t a

theorem kind_facts (k : Kind) : k.ramStart + k.ramSize ≤ k.eeStart ∧ 0x60 < k.ramSize ∧
    0 < k.eeSize ∧ (k.ramStart = 0 ∨ (0x61 < k.ramStart)) := by
  cases k <;> decide

theorem kind_disj (k : Kind) (a : Nat) (h : EeR k a) : ¬ RamR k a := by
  have := kind_facts k
  unfold EeR RamR at *
  omega

theorem view_isSome (t : Ideal) (d : Dev) (a : Nat) :
    (view W t d a).isSome = true ↔ Present W t a := by
  unfold view Present
  by_cases h1 : Mp t a
  · simp [h1]
  · by_cases h2 : EeR W.kind a
    · simp [h1, h2]
    · by_cases h3 : RamR W.kind a <;> simp [h1, h2, h3]

theorem valid_nat (a : Nat) : MemMap.Valid (a : Int) ↔ a < 0x10000 := by
  unfold MemMap.Valid
  omega

theorem rep_mapped {d : Dev} {t : Ideal} {s : MemMap.St} (h : Rep W d t) (hs : d.mapper = some s)
    (a : Nat) : MemMap.isMapped W.mc s (a : Int) = true ↔ Mp t a := by
  unfold Rep at h
  rw [hs] at h
  obtain ⟨hE, hA, hauto, hreach⟩ := h
  obtain ⟨p, tn, n, hr⟩ := hreach.rel hE hA
  unfold MemMap.isMapped Mp
  rw [hauto, Bool.false_or]
  by_cases hv : MemMap.Valid (a : Int)
  · have hlt := (valid_nat a).1 hv
    have hp : a / 256 < 256 := by omega
    have hg := MemMap.getPage_valid (s := s) hv
    rw [hg, Int.toNat_natCast, hr.agree.mapped _ hp]
    generalize MemMap.entry (s.allocTable (a / 256)) = e
    have h1 : ((e : Int) != MemMap.INVALID_ADDRESS) = true := by
      rw [bne_iff_ne]
      unfold MemMap.INVALID_ADDRESS
      omega
    rw [h1, Bool.true_and]
    by_cases he : e = 0
    · subst he; simp
    · simp [he, hlt]
  · rw [MemMap.getPage_invalid hv]
    have : ¬ a < 0x10000 := fun hc => hv ((valid_nat a).2 hc)
    simp [this, MemMap.INVALID_ADDRESS]

theorem readMem_same (s : MemMap.St) (a : Int) : (MemMap.readMem W.E W.mc s a false).1 = s := by
  have e : MemMap.readMem W.E W.mc s a false =
      if MemMap.getFlashPageNum s a < 0 then (s, MemMap.getFlashPageNum s a, 0#8)
      else if s.halted then (s, MemMap.SUCCESS, 0#8)
      else if MemMap.getFlashPageNum s a = 0 then (s, MemMap.NOT_MAPPED, 0#8)
      else if MemMap.getFlashPageNum s a = (s.writePage : Int) ∧ !false then
        (s, MemMap.SUCCESS, s.writeBuf (a % 256).toNat)
      else (s, MemMap.SUCCESS,
        s.hw.flash ((MemMap.getFlashPageNum s a).toNat * 0x100 + (a % 256).toNat)) := rfl
  rw [e]
  split
  · rfl
  · split
    · rfl
    · split
      · rfl
      · split <;> rfl

theorem rep_space {d : Dev} {t : Ideal} (h : Rep W d t) (a : Nat) : space W d a = view W t d a := by
  unfold space view mappedAt mappedByte
  cases hs : d.mapper with
  | none =>
    have hm : ¬ Mp t a := by
      unfold Rep at h
      rw [hs] at h
      intro hc
      have := h (a / 256)
      rw [hc.2] at this
      cases this
    rw [if_neg hm]
    rfl
  | some s =>
    dsimp only
    by_cases hm : Mp t a
    · rw [if_pos ((rep_mapped h hs a).2 hm), if_pos hm]
      unfold Rep at h
      rw [hs] at h
      obtain ⟨hE, hA, _, hreach⟩ := h
      obtain ⟨p, tn, n, hr⟩ := hreach.rel hE hA
      have := (MemMap.read_mapped hE hA hr ((valid_nat a).2 hm.1) (by
        rw [Int.toNat_natCast]; exact hm.2) false).2
      rw [this, Int.toNat_natCast]
    · rw [if_neg (fun hc => hm ((rep_mapped h hs a).1 hc)), if_neg hm]
      rfl

theorem mapperOk_rep {d : Dev} (h : MapperOk W d) : ∃ t, Rep W d t ∧ Sep W t := by
  cases hs : d.mapper with
  | none =>
    refine ⟨⟨fun _ => false, fun _ => 0#8, 0⟩, ?_, ?_⟩
    · unfold Rep; rw [hs]; intro; rfl
    · intro a _ hm; cases hm.2
  | some s =>
    obtain ⟨hE, hA, hauto, ⟨t, ht⟩, hsep⟩ := h s hs
    have hr : Rep W d t := by
      unfold Rep
      rw [hs]
      exact ⟨hE, hA, hauto, ht⟩
    refine ⟨t, hr, fun a ha hm => ?_⟩
    have := hsep a ha
    rw [(rep_mapped hr hs a).2 hm] at this
    cases this

/-! ## Pieces of a request -/

theorem rep_mapperOk {d : Dev} {t : Ideal} (h : Rep W d t) (hsep : Sep W t) : MapperOk W d := by
  intro s hs
  have h0 := h
  unfold Rep at h
  rw [hs] at h
  obtain ⟨hE, hA, hauto, hreach⟩ := h
  refine ⟨hE, hA, hauto, ⟨t, hreach⟩, fun a ha => ?_⟩
  cases hm : MemMap.isMapped W.mc s (a : Int) with
  | false => rfl
  | true => exact absurd ((rep_mapped h0 hs a).1 hm) (hsep a ha)

structure Chunk (W : World) (rd : Bool) (t : Ideal) (p : Pos) (t' : Ideal) (p' : Pos) (n : Nat) :
    Prop where
  addr : p'.addr = p.addr + n
  off : p'.off = p.off + n
  rep : Rep W p'.d t'
  mapped : t'.mapped = t.mapped
  present : ∀ i, i < n → Present W t (p.addr + i)
  same : SameElse W p.d p'.d
  read : rd = true → p'.d = p.d ∧ t' = t ∧ ∀ j,
    if p.off ≤ j ∧ j < p.off + n then view W t p.d (p.addr + (j - p.off)) = some (p'.buf j)
    else p'.buf j = p.buf j
  write : rd = false → p'.buf = p.buf ∧ (∀ a, view W t' p'.d a =
    if p.addr ≤ a ∧ a < p.addr + n then some (p.buf (p.off + (a - p.addr))) else view W t p.d a) ∧
    (p'.d.eeModified = true ↔ p.d.eeModified = true ∨ ∃ i, i < n ∧ EeR W.kind (p.addr + i))

theorem SameElse.refl (d : Dev) : SameElse W d d :=
  ⟨rfl, rfl, rfl, rfl, rfl, rfl, fun _ _ => rfl, fun _ _ => rfl, rfl⟩

theorem SameElse.trans {d1 d2 d3 : Dev} (h1 : SameElse W d1 d2) (h2 : SameElse W d2 d3) :
    SameElse W d1 d3 :=
  ⟨h2.1.trans h1.1, h2.2.trans h1.2, h2.3.trans h1.3, h2.4.trans h1.4, h2.5.trans h1.5,
    h2.6.trans h1.6, fun i hi => (h2.7 i hi).trans (h1.7 i hi),
    fun i hi => (h2.8 i hi).trans (h1.8 i hi), h2.9.trans h1.9⟩

theorem Chunk.refl (rd : Bool) {t : Ideal} {p : Pos} (h : Rep W p.d t) : Chunk W rd t p t p 0 where
  addr := rfl
  off := rfl
  rep := h
  mapped := rfl
  present := fun i hi => absurd hi (Nat.not_lt_zero i)
  same := SameElse.refl _
  read := fun _ => ⟨rfl, rfl, fun j => by rw [if_neg (by omega)]⟩
  write := fun _ => ⟨rfl, fun a => by rw [if_neg (by omega)], ⟨Or.inl, fun h => by
    rcases h with h | ⟨i, hi, _⟩
    · exact h
    · exact absurd hi (Nat.not_lt_zero i)⟩⟩

theorem present_congr {t t' : Ideal} (h : t'.mapped = t.mapped) (a : Nat) :
    Present W t' a ↔ Present W t a := by unfold Present Mp; rw [h]

theorem Chunk.trans {rd : Bool} {t t' t'' : Ideal} {p p' p'' : Pos} {n m : Nat}
    (h1 : Chunk W rd t p t' p' n) (h2 : Chunk W rd t' p' t'' p'' m) :
    Chunk W rd t p t'' p'' (n + m) where
  addr := by rw [h2.addr, h1.addr, Nat.add_assoc]
  off := by rw [h2.off, h1.off, Nat.add_assoc]
  rep := h2.rep
  mapped := h2.mapped.trans h1.mapped
  present := by
    intro i hi
    by_cases hn : i < n
    · exact h1.present i hn
    · have := h2.present (i - n) (by omega)
      rw [present_congr h1.mapped, h1.addr] at this
      have e : p.addr + n + (i - n) = p.addr + i := by omega
      rwa [e] at this
  same := h1.same.trans h2.same
  read := by
    intro hrd
    obtain ⟨a1, a2, a3⟩ := h1.read hrd
    obtain ⟨b1, b2, b3⟩ := h2.read hrd
    refine ⟨b1.trans a1, b2.trans a2, fun j => ?_⟩
    have a3 := a3 j
    have b3 := b3 j
    rw [h1.off, h1.addr, a1, a2] at b3
    by_cases hj : p.off + n ≤ j ∧ j < p.off + n + m
    · rw [if_pos hj] at b3
      rw [if_pos (by omega)]
      have e : p.addr + n + (j - (p.off + n)) = p.addr + (j - p.off) := by omega
      rwa [e] at b3
    · rw [if_neg hj] at b3
      rw [b3]
      by_cases hj2 : p.off ≤ j ∧ j < p.off + n
      · rw [if_pos hj2] at a3
        rwa [if_pos (by omega)]
      · rw [if_neg hj2] at a3
        rwa [if_neg (by omega)]
  write := by
    intro hrd
    obtain ⟨a1, a2, a3⟩ := h1.write hrd
    obtain ⟨b1, b2, b3⟩ := h2.write hrd
    refine ⟨b1.trans a1, fun a => ?_, ?_⟩
    · have a2 := a2 a
      have b2 := b2 a
      rw [h1.off, h1.addr, a1] at b2
      rw [b2]
      by_cases hj : p.addr + n ≤ a ∧ a < p.addr + n + m
      · rw [if_pos hj, if_pos (by omega)]
        have e : p.off + n + (a - (p.addr + n)) = p.off + (a - p.addr) := by omega
        rw [e]
      · rw [if_neg hj, a2]
        by_cases hj2 : p.addr ≤ a ∧ a < p.addr + n
        · rw [if_pos hj2, if_pos (by omega)]
        · rw [if_neg hj2, if_neg (by omega)]
    · rw [b3, a3, h1.addr]
      constructor
      · rintro ((h | ⟨i, hi, he⟩) | ⟨i, hi, he⟩)
        · exact Or.inl h
        · exact Or.inr ⟨i, by omega, he⟩
        · exact Or.inr ⟨n + i, by omega, by rwa [Nat.add_assoc] at he⟩
      · rintro (h | ⟨i, hi, he⟩)
        · exact Or.inl (Or.inl h)
        · by_cases hn : i < n
          · exact Or.inl (Or.inr ⟨i, hn, he⟩)
          · refine Or.inr ⟨i - n, by omega, ?_⟩
            have e : p.addr + n + (i - n) = p.addr + i := by omega
            rwa [e]

/-- The flag `found` plays no role in a chunk. -/
theorem Chunk.flag {rd : Bool} {t t' : Ideal} {p p' : Pos} {n : Nat} (h : Chunk W rd t p t' p' n)
    (b c : Bool) : Chunk W rd t { p with found := b } t' { p' with found := c } n :=
  ⟨h.addr, h.off, h.rep, h.mapped, h.present, h.same, h.read, h.write⟩

/-! ## The virtual flash memory -/

theorem put_nil (dst : Nat → Byte) (o : Nat) : put dst o [] = dst := by
  funext i
  unfold put
  rw [if_neg (by simp)]

theorem readMemPtr_cons (s : MemMap.St) (a : Int) (n : Nat) :
    MemMap.readMemPtr W.E W.mc false (n + 1) s a =
      if (MemMap.readMem W.E W.mc s a false).2.1 ≠ MemMap.SUCCESS then
        ((MemMap.readMem W.E W.mc s a false).1, (MemMap.readMem W.E W.mc s a false).2.1,
          [(MemMap.readMem W.E W.mc s a false).2.2])
      else
        let r2 := MemMap.readMemPtr W.E W.mc false n (MemMap.readMem W.E W.mc s a false).1 (a + 1)
        (r2.1, r2.2.1, (MemMap.readMem W.E W.mc s a false).2.2 :: r2.2.2) := rfl

/-- A block of mapped addresses is read. -/
theorem read_block (hE : ∀ k, W.E.fault k = none) (hA : MemMap.AreaOk W.E W.mc) {pe tn : Bool}
    {s : MemMap.St} {t : Ideal} {m : Nat} (h : MemMap.Rel W.mc pe tn s t m) (n : Nat) :
    ∀ a, (∀ i, i < n → Mp t (a + i)) →
      MemMap.readMemPtr W.E W.mc false n s (a : Nat) = (s, 0, (List.range n).map (fun i => t.val (a + i))) := by
  induction n with
  | zero => intro a _; rfl
  | succ n ih =>
    intro a ha
    have h0 := ha 0 (by omega)
    have hr := (MemMap.read_mapped hE hA h ((valid_nat a).2 h0.1) (by
      rw [Int.toNat_natCast]; exact h0.2) false).2
    rw [readMemPtr_cons, readMem_same, hr, if_neg (show ¬ ((0 : Int), t.val (a : Int).toNat).1 ≠ MemMap.SUCCESS from not_not_intro rfl)]
    have e : ((a : Int) + 1) = ((a + 1 : Nat) : Int) := rfl
    rw [e, ih (a + 1) (fun i hi => by
      have := ha (i + 1) (by omega)
      have e : a + 1 + i = a + (i + 1) := by omega
      rwa [e])]
    dsimp only
    rw [List.range_succ_eq_map, List.map_cons, List.map_map, Int.toNat_natCast]
    congr 3
    apply List.map_congr_left
    intro i _
    show t.val (a + 1 + i) = t.val (a + (i + 1))
    congr 1
    omega

theorem ideal_write_mapped (auto : Bool) (t : Ideal) (a : Int) (d : Byte) (hv : MemMap.Valid a)
    (hm : t.mapped (a.toNat / 256) = true) :
    t.step auto (.write a d) = (t.set a.toNat d, 0, 0#8) := by
  have e : t.step auto (.write a d) =
      if ¬ MemMap.Valid a then (t, -1, 0#8)
      else if t.mapped (a.toNat / 256) then (t.set a.toNat d, 0, 0#8)
      else if auto then
        if t.free = 0 then (t, -4, 0#8) else ((t.map (a.toNat / 256)).set a.toNat d, 0, 0#8)
      else (t, -2, 0#8) := rfl
  rw [e, if_neg (not_not_intro hv), if_pos hm]

/-- A block of mapped addresses is written. -/
theorem write_block (hE : ∀ k, W.E.fault k = none) (hA : MemMap.AreaOk W.E W.mc)
    (_ : W.mc.autoAddPage = false) (ds : List Byte) :
    ∀ {s : MemMap.St} {t : Ideal} (_ : MemMap.Reached W.E W.mc s t) (a : Nat),
      (∀ i, i < ds.length → Mp t (a + i)) →
      (MemMap.writeMemPtr W.E W.mc s (a : Nat) ds).2 = 0 ∧
      ∃ t', MemMap.Reached W.E W.mc (MemMap.writeMemPtr W.E W.mc s (a : Nat) ds).1 t' ∧
        t'.mapped = t.mapped ∧
        ∀ b, t'.val b = if a ≤ b ∧ b < a + ds.length then ds.getD (b - a) 0#8 else t.val b := by
  induction ds with
  | nil =>
    intro s t h a _
    exact ⟨rfl, t, h, rfl, fun b => by rw [if_neg (by simp)]⟩
  | cons d ds ih =>
    intro s t h a ha
    have h0 := ha 0 (by simp)
    have hv := (valid_nat a).2 h0.1
    have hm : t.mapped ((a : Int).toNat / 256) = true := by rw [Int.toNat_natCast]; exact h0.2
    obtain ⟨pe, tn, m, hrel⟩ := h.rel hE hA
    obtain ⟨_, h2, _, _⟩ := MemMap.write_rel hE hA hrel (a : Int) d (Or.inr fun _ => hm)
    have h1 := reached_write h (a : Int) d (fun _ => hm)
    have est : t.step W.mc.autoAddPage (.write (a : Int) d) = (t.set a d, 0, 0#8) := by
      rw [ideal_write_mapped _ _ _ _ hv hm, Int.toNat_natCast]
    rw [est] at h1 h2
    have e : MemMap.writeMemPtr W.E W.mc s (a : Int) (d :: ds) =
      if (MemMap.writeMem W.E W.mc s (a : Int) d).2 ≠ MemMap.SUCCESS
      then MemMap.writeMem W.E W.mc s (a : Int) d
      else MemMap.writeMemPtr W.E W.mc (MemMap.writeMem W.E W.mc s (a : Int) d).1 ((a + 1 : Nat) : Int) ds := rfl
    rw [e, if_neg (show ¬ (MemMap.writeMem W.E W.mc s (a : Int) d).2 ≠ MemMap.SUCCESS from
      not_not_intro h2)]
    obtain ⟨i1, t', i2, i3, i4⟩ := ih h1 (a + 1) (fun i hi => by
      have := ha (i + 1) (by simp; omega)
      have e : a + 1 + i = a + (i + 1) := by omega
      rw [e]
      exact this)
    refine ⟨i1, t', i2, i3, fun b => ?_⟩
    rw [i4]
    show _ = if a ≤ b ∧ b < a + (ds.length + 1) then (d :: ds).getD (b - a) 0#8 else t.val b
    by_cases hb : a + 1 ≤ b ∧ b < a + 1 + ds.length
    · rw [if_pos hb, if_pos (by omega)]
      obtain ⟨k, rfl⟩ : ∃ k, b = a + 1 + k := ⟨b - (a + 1), by omega⟩
      have e1 : a + 1 + k - (a + 1) = k := by omega
      have e2 : a + 1 + k - a = k + 1 := by omega
      rw [e1, e2, List.getD_cons_succ]
    · rw [if_neg hb]
      by_cases hba : b = a
      · subst hba
        rw [if_pos (by omega), Nat.sub_self]
        show (if b = b then d else t.val b) = d
        rw [if_pos rfl]
      · rw [if_neg (by omega)]
        exact if_neg hba

theorem slice_length (b : Nat → Byte) (o n : Nat) : (slice b o n).length = n := by
  unfold slice; simp

theorem slice_getD (b : Nat → Byte) (o : Nat) {n i : Nat} (h : i < n) :
    (slice b o n).getD i 0#8 = b (o + i) := by
  unfold slice
  rw [List.getD_eq_getElem?_getD, List.getElem?_map, List.getElem?_range h]
  rfl

/-- A piece in the virtual flash memory. -/
theorem mapOp_chunk (rd : Bool) {t : Ideal} {p : Pos} {s : MemMap.St} (hr : Rep W p.d t)
    (hs : p.d.mapper = some s) {n : Nat} (hn : ∀ i, i < n → Mp t (p.addr + i))
    (hsep : Sep W t) :
    (mapOp W rd s p n).2 = true ∧ ∃ t',
      Chunk W rd t p t' { (mapOp W rd s p n).1 with addr := p.addr + n, off := p.off + n } n := by
  have hr0 := hr
  unfold Rep at hr
  rw [hs] at hr
  obtain ⟨hE, hA, hauto, hreach⟩ := hr
  obtain ⟨pe, tn, m, hrel⟩ := hreach.rel hE hA
  cases rd with
  | true =>
    have hb := read_block hE hA hrel n p.addr hn
    unfold mapOp
    rw [if_pos rfl]
    dsimp only
    rw [hb]
    refine ⟨rfl, t, ?_⟩
    have hd : ({ p.d with mapper := some s } : Dev) = p.d := by
      cases hp : p.d; rw [hp] at hs; dsimp only at hs ⊢; rw [hs]
    refine ⟨rfl, rfl, ?_, rfl, fun i hi => Or.inl (hn i hi), ?_, ?_, fun hc => (by cases hc)⟩
    · dsimp only; rw [hd]; exact hr0
    · dsimp only; rw [hd]; exact SameElse.refl _
    · intro _
      refine ⟨hd, rfl, fun j => ?_⟩
      dsimp only [put]
      rw [List.length_map, List.length_range]
      by_cases hj : p.off ≤ j ∧ j < p.off + n
      · rw [if_pos hj, if_pos hj]
        unfold view
        have hlt : j - p.off < n := by omega
        rw [if_pos (hn _ hlt), List.getD_eq_getElem?_getD, List.getElem?_map,
          List.getElem?_range hlt]
        rfl
      · rw [if_neg hj, if_neg hj]
  | false =>
    obtain ⟨w1, t', w2, w3, w4⟩ := write_block hE hA hauto (slice p.buf p.off n) hreach p.addr
      (by rw [slice_length]; exact hn)
    unfold mapOp
    rw [if_neg (by decide)]
    dsimp only
    refine ⟨by rw [w1]; rfl, t', rfl, rfl, ⟨hE, hA, hauto, w2⟩, w3,
      fun i hi => Or.inl (hn i hi),
      ⟨rfl, rfl, rfl, rfl, rfl, rfl, fun _ _ => rfl, fun _ _ => rfl, by rw [hs]; rfl⟩,
      fun hc => (by cases hc), fun _ => ⟨rfl, fun a => ?_, ?_⟩⟩
    · have hmp : Mp t' a ↔ Mp t a := by unfold Mp; rw [w3]
      unfold view
      by_cases ha : p.addr ≤ a ∧ a < p.addr + n
      · have hma : Mp t a := by
          have := hn (a - p.addr) (by omega)
          have e : p.addr + (a - p.addr) = a := by omega
          rwa [e] at this
        rw [if_pos (hmp.2 hma), if_pos ha, w4, slice_length, if_pos ha, slice_getD _ _ (by omega)]
      · rw [if_neg ha]
        by_cases hma : Mp t a
        · rw [if_pos (hmp.2 hma), if_pos hma, w4, slice_length, if_neg ha]
        · rw [if_neg (fun h => hma (hmp.1 h)), if_neg hma]
    · constructor
      · exact Or.inl
      · rintro (h | ⟨i, hi, he⟩)
        · exact h
        · exact absurd (hn i hi) (hsep _ (Or.inl he))

/-! ## EEPROM -/

theorem eeCopy_chunk (rd : Bool) {t : Ideal} {p : Pos} (hr : Rep W p.d t) (hsep : Sep W t) {n : Nat}
    (h1 : W.kind.eeStart ≤ p.addr) (h2 : p.addr + n ≤ W.kind.eeStart + W.kind.eeSize)
    (hn : 0 < n) (b : Bool) :
    Chunk W rd t p t { eeCopy W rd p n with addr := p.addr + n, off := p.off + n, found := b } n := by
  have hee : ∀ i, i < n → EeR W.kind (p.addr + i) := fun i hi => by unfold EeR; omega
  cases rd with
  | true =>
    unfold eeCopy
    rw [if_pos rfl]
    refine ⟨rfl, rfl, hr, rfl, fun i hi => Or.inr (Or.inl (hee i hi)), SameElse.refl _,
      fun _ => ⟨rfl, rfl, fun j => ?_⟩, fun hc => (by cases hc)⟩
    dsimp only [blit]
    by_cases hj : p.off ≤ j ∧ j < p.off + n
    · rw [if_pos hj, if_pos hj]
      have := hee (j - p.off) (by omega)
      unfold view
      rw [if_neg (hsep _ (Or.inl this)), if_pos this]
      congr 2
      omega
    · rw [if_neg hj, if_neg hj]
  | false =>
    unfold eeCopy
    rw [if_neg (by decide)]
    refine ⟨rfl, rfl, hr, rfl, fun i hi => Or.inr (Or.inl (hee i hi)),
      ⟨rfl, rfl, rfl, rfl, rfl, rfl, fun i hi => ?_, fun _ _ => rfl, rfl⟩,
      fun hc => (by cases hc), fun _ => ⟨rfl, fun a => ?_, ?_⟩⟩
    · dsimp only [blit]
      rw [if_neg (by omega)]
    · unfold view
      dsimp only [blit]
      by_cases ha : p.addr ≤ a ∧ a < p.addr + n
      · have he : EeR W.kind a := by unfold EeR; omega
        rw [if_neg (hsep _ (Or.inl he)), if_pos he, if_pos ha, if_pos (by omega)]
        congr 2
        omega
      · rw [if_neg ha]
        by_cases hm : Mp t a
        · rw [if_pos hm, if_pos hm]
        · rw [if_neg hm, if_neg hm]
          by_cases he : EeR W.kind a
          · rw [if_pos he, if_pos he, if_neg (by unfold EeR at he; omega)]
          · rw [if_neg he, if_neg he]
    · exact ⟨fun _ => Or.inr ⟨0, hn, hee 0 hn⟩, fun _ => rfl⟩

/-! ## RAM -/

/-- The RAM with the status byte in its place. -/
def ramByte (d : Dev) (i : Nat) : Byte := if i = 0x60 then d.status else d.ram i

/-- The effect of a write of `n` bytes at the offset `a`. -/
structure RamWrote (d d' : Dev) (a n : Nat) (src : Nat → Byte) (o : Nat) : Prop where
  byte : ∀ i, ramByte d' i = if a ≤ i ∧ i < a + n then src (o + (i - a)) else ramByte d i
  hidden : d'.ram 0x60 = d.ram 0x60
  ee : d'.ee = d.ee
  ownAddr : d'.ownAddr = d.ownAddr
  runState : d'.runState = d.runState
  enabled : d'.enabled = d.enabled
  comTabStatic : d'.comTabStatic = d.comTabStatic
  restart : d'.restart = d.restart
  undef : d'.undef = d.undef
  mapper : d'.mapper = d.mapper
  eeModified : d'.eeModified = d.eeModified

theorem ramStore_wrote (src : Nat → Byte) (n : Nat) : ∀ (a o : Nat) (d : Dev),
    RamWrote d (ramStore src n a o d) a n src o := by
  induction n with
  | zero =>
    intro a o d
    exact ⟨fun i => by rw [if_neg (by omega)]; rfl, rfl, rfl, rfl, rfl, rfl, rfl, rfl, rfl, rfl, rfl⟩
  | succ n ih =>
    intro a o d
    have e : ramStore src (n + 1) a o d = ramStore src n (a + 1) (o + 1)
      (if a = statusOffset then { d with status := src o }
       else { d with ram := fun i => if i = a then src o else d.ram i }) := rfl
    rw [e]
    by_cases ha : a = statusOffset
    · rw [if_pos ha]
      have h := ih (a + 1) (o + 1) { d with status := src o }
      refine ⟨fun i => ?_, h.2, h.3, h.4, h.5, h.6, h.7, h.8, h.9, h.10, h.11⟩
      rw [h.1]
      by_cases hi : a + 1 ≤ i ∧ i < a + 1 + n
      · rw [if_pos hi, if_pos (by omega)]
        congr 1
        omega
      · rw [if_neg hi]
        unfold ramByte
        dsimp only
        by_cases hia : i = a
        · subst hia
          rw [if_pos (show i = 0x60 from ha), if_pos (by omega)]
          congr 1
          omega
        · have : i ≠ 0x60 := by rw [ha] at hia; exact hia
          rw [if_neg this, if_neg (by omega), if_neg this]
    · rw [if_neg ha]
      have h := ih (a + 1) (o + 1) { d with ram := fun i => if i = a then src o else d.ram i }
      have ha' : a ≠ 0x60 := ha
      refine ⟨fun i => ?_, h.2.trans (if_neg (fun hc => ha' hc.symm)), h.3, h.4, h.5, h.6, h.7, h.8, h.9, h.10, h.11⟩
      rw [h.1]
      by_cases hi : a + 1 ≤ i ∧ i < a + 1 + n
      · rw [if_pos hi, if_pos (by omega)]
        congr 1
        omega
      · rw [if_neg hi]
        unfold ramByte
        dsimp only
        by_cases hia : i = a
        · subst hia
          rw [if_neg ha', if_pos rfl, if_pos (by omega)]
          congr 1
          omega
        · rw [if_neg hia, if_neg (show ¬ (a ≤ i ∧ i < a + (n + 1)) by omega)]

theorem cpyTo_wrote (k : Kind) (d : Dev) (address : Nat) (src : Nat → Byte) (off count : Nat)
    (h : k.ramStart ≤ address ∧ (address = 0x60 → k.ramStart = 0)) :
    RamWrote d (cpyToUserRam k d address src off count) (address - k.ramStart) count src off := by
  unfold cpyToUserRam
  by_cases h1 : address = statusOffset ∧ count = 1
  · rw [if_pos h1]
    have h60 : address = 0x60 := h1.1
    have h0 := h.2 h60
    refine ⟨fun i => ?_, rfl, rfl, rfl, rfl, rfl, rfl, rfl, rfl, rfl, rfl⟩
    unfold ramByte
    dsimp only
    rw [h0, h1.2, h60]
    by_cases hi : i = 0x60
    · rw [if_pos hi, if_pos (by omega)]
      congr 1
      omega
    · rw [if_neg hi, if_neg (by omega)]
      rw [if_neg hi]
  · rw [if_neg h1]
    dsimp only
    by_cases h2 : statusOffset < address - k.ramStart ∨ address - k.ramStart + count < statusOffset
    · rw [if_pos h2]
      have h2' : 0x60 < address - k.ramStart ∨ address - k.ramStart + count < 0x60 := h2
      refine ⟨fun i => ?_, ?_, rfl, rfl, rfl, rfl, rfl, rfl, rfl, rfl, rfl⟩
      · unfold ramByte
        dsimp only [blit]
        by_cases hi : i = 0x60
        · rw [if_pos hi, if_neg (by omega), if_pos hi]
        · rw [if_neg hi]
          by_cases hj : address - k.ramStart ≤ i ∧ i < address - k.ramStart + count
          · rw [if_pos hj, if_pos hj]
          · rw [if_neg hj, if_neg hj, if_neg hi]
      · exact if_neg (by omega)
    · rw [if_neg h2]
      exact ramStore_wrote src count _ off d

theorem ramLoad_read (d : Dev) (n : Nat) : ∀ (a o : Nat) (b : Nat → Byte) (j : Nat),
    ramLoad d n a o b j = if o ≤ j ∧ j < o + n then ramByte d (a + (j - o)) else b j := by
  induction n with
  | zero => intro a o b j; rw [if_neg (by omega)]; rfl
  | succ n ih =>
    intro a o b j
    have e : ramLoad d (n + 1) a o b = ramLoad d n (a + 1) (o + 1)
      (fun i => if i = o then (if a = statusOffset then d.status else d.ram a) else b i) := rfl
    rw [e, ih]
    by_cases hj : o + 1 ≤ j ∧ j < o + 1 + n
    · rw [if_pos hj, if_pos (by omega)]
      congr 1
      omega
    · rw [if_neg hj]
      by_cases hjo : j = o
      · subst hjo
        rw [if_pos (show j ≤ j ∧ j < j + (n + 1) by omega), Nat.sub_self]
        exact if_pos rfl
      · rw [if_neg hjo, if_neg (by omega)]

theorem cpyFrom_read (k : Kind) (d : Dev) (address : Nat) (dst : Nat → Byte) (off count : Nat)
    (h : k.ramStart ≤ address ∧ (address = 0x60 → k.ramStart = 0)) (j : Nat) :
    cpyFromUserRam k d address dst off count j =
      if off ≤ j ∧ j < off + count then ramByte d (address - k.ramStart + (j - off)) else dst j := by
  unfold cpyFromUserRam
  by_cases h1 : address = statusOffset ∧ count = 1
  · rw [if_pos h1]
    have h60 : address = 0x60 := h1.1
    rw [h.2 h60, h60, h1.2]
    by_cases hj : j = off
    · rw [if_pos hj, if_pos (by omega), hj, Nat.sub_self]
      rfl
    · rw [if_neg hj, if_neg (by omega)]
  · rw [if_neg h1]
    by_cases h2 : statusOffset < address - k.ramStart ∨ address - k.ramStart + count < statusOffset
    · rw [if_pos h2]
      have h2' : 0x60 < address - k.ramStart ∨ address - k.ramStart + count < 0x60 := h2
      unfold blit ramByte
      by_cases hj : off ≤ j ∧ j < off + count
      · rw [if_pos hj, if_pos hj, if_neg (by omega)]
      · rw [if_neg hj, if_neg hj]
    · rw [if_neg h2]
      exact ramLoad_read d count _ off dst j

theorem ramCopy_chunk (rd : Bool) {t : Ideal} {p : Pos} (hr : Rep W p.d t) (hsep : Sep W t) {n : Nat}
    (h1 : W.kind.ramStart ≤ p.addr) (h2 : p.addr + n ≤ W.kind.ramStart + W.kind.ramSize)
    (hn : 0 < n) (b : Bool) :
    Chunk W rd t p t { ramCopy W rd p n with addr := p.addr + n, off := p.off + n, found := b } n := by
  have hf := kind_facts W.kind
  have hram : ∀ i, i < n → RamR W.kind (p.addr + i) := fun i hi => by unfold RamR; omega
  have hst : W.kind.ramStart ≤ p.addr ∧ (p.addr = 0x60 → W.kind.ramStart = 0) := ⟨h1, by omega⟩
  cases rd with
  | true =>
    unfold ramCopy
    rw [if_pos rfl]
    refine ⟨rfl, rfl, hr, rfl, fun i hi => Or.inr (Or.inr (hram i hi)), SameElse.refl _,
      fun _ => ⟨rfl, rfl, fun j => ?_⟩, fun hc => (by cases hc)⟩
    dsimp only
    rw [cpyFrom_read _ _ _ _ _ _ hst]
    by_cases hj : p.off ≤ j ∧ j < p.off + n
    · rw [if_pos hj, if_pos hj]
      have := hram (j - p.off) (by omega)
      unfold view
      rw [if_neg (hsep _ (Or.inr this)), if_neg (fun he => kind_disj _ _ he this), if_pos this]
      have e : p.addr + (j - p.off) - W.kind.ramStart = p.addr - W.kind.ramStart + (j - p.off) := by
        omega
      rw [e]
      rfl
    · rw [if_neg hj, if_neg hj]
  | false =>
    have hw := cpyTo_wrote W.kind p.d p.addr p.buf p.off n hst
    unfold ramCopy
    rw [if_neg (by decide)]
    refine ⟨rfl, rfl, ?_, rfl, fun i hi => Or.inr (Or.inr (hram i hi)),
      ⟨hw.4, hw.5, hw.6, hw.7, hw.8, hw.9, fun i _ => by rw [hw.3], fun i hi => ?_, by rw [hw.10]⟩,
      fun hc => (by cases hc), fun _ => ⟨rfl, fun a => ?_, ?_⟩⟩
    · unfold Rep at hr ⊢
      dsimp only
      rw [hw.10]
      exact hr
    · by_cases h60 : i = 0x60
      · rw [h60]; exact hw.2
      · have hb := hw.1 i
        unfold ramByte at hb
        rw [if_neg h60, if_neg h60, if_neg (by omega)] at hb
        exact hb
    · unfold view
      dsimp only
      by_cases ha : p.addr ≤ a ∧ a < p.addr + n
      · have he : RamR W.kind a := by unfold RamR; omega
        rw [if_neg (hsep _ (Or.inr he)), if_neg (fun hc => kind_disj _ _ hc he), if_pos he, if_pos ha]
        have hb := hw.1 (a - W.kind.ramStart)
        unfold ramByte at hb
        rw [hb, if_pos (by omega)]
        congr 2
        omega
      · rw [if_neg ha]
        by_cases hm : Mp t a
        · rw [if_pos hm, if_pos hm]
        · rw [if_neg hm, if_neg hm, hw.3]
          by_cases he : EeR W.kind a
          · rw [if_pos he, if_pos he]
          · rw [if_neg he, if_neg he]
            by_cases hrm : RamR W.kind a
            · rw [if_pos hrm, if_pos hrm]
              have hb := hw.1 (a - W.kind.ramStart)
              unfold ramByte at hb
              rw [hb, if_neg (by unfold RamR at hrm; omega)]
            · rw [if_neg hrm, if_neg hrm]
    · dsimp only
      rw [hw.11]
      constructor
      · exact Or.inl
      · rintro (h | ⟨i, hi, he⟩)
        · exact h
        · exact absurd (hram i hi) (kind_disj _ _ he)

end Verif.Dev
