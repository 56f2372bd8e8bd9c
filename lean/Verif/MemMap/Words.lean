import Verif.MemMap.Props

/-!
# C59: blocks and multi-byte values in the virtual memory
-/

namespace Verif.MemMap

open Verif.Iap

variable {E : Env} {c : Cfg}

/-- Some disciplined history has led to state `s`, the ideal memory to state `t`. -/
def Reached (E : Env) (c : Cfg) (s : St) (t : Ideal) : Prop :=
  ∃ f ops, FreshArea c f ∧ Disciplined c.autoAddPage (emptyIdeal c) false false ops ∧
    s = (run E c (ctor c ⟨f, 0⟩) ops).1 ∧ t = (Ideal.run c.autoAddPage (emptyIdeal c) ops).1

/-- The address may be written: every address with `autoAddPage`, otherwise a mapped one. -/
def Writable (c : Cfg) (t : Ideal) (a : Int) : Prop :=
  c.autoAddPage = true ∨ (Valid a → t.mapped (a.toNat / 256) = true)

theorem run_keeps (hE : ∀ k, E.fault k = none) (hA : AreaOk E c) (ops : List Op) :
    ∀ {pending torn : Bool} {s : St} {t : Ideal} {n : Nat},
      Rel c pending torn s t n → Disciplined c.autoAddPage t pending torn ops →
      ∃ p t' n', Rel c p t' (run E c s ops).1 (Ideal.run c.autoAddPage t ops).1 n' := by
  induction ops with
  | nil => intro p t' s t n h _; exact ⟨p, t', n, h⟩
  | cons op ops ih =>
    intro pending torn s t n h hd
    obtain ⟨p', t', n', h1, h2, _, _⟩ := step_rel hE hA h op ops hd
    exact ih h1 h2

theorem Reached.rel (hE : ∀ k, E.fault k = none) (hA : AreaOk E c) {s : St} {t : Ideal}
    (h : Reached E c s t) : ∃ p tn n, Rel c p tn s t n := by
  obtain ⟨f, ops, hf, hd, rfl, rfl⟩ := h
  obtain ⟨n, h⟩ := boot_rel hA (fresh_boot (hw := ⟨f, 0⟩) hA hf)
  exact run_keeps hE hA ops h hd

/-- The ideal memory after a successful write. -/
structure Wrote (t t' : Ideal) (a : Int) (d : Byte) : Prop where
  valid : Valid a
  mapped : t'.mapped (a.toNat / 256) = true
  val : t'.val a.toNat = d
  keepMapped : ∀ v, t.mapped v = true → t'.mapped v = true
  keepVal : ∀ b, b ≠ a.toNat → t.mapped (b / 256) = true → t'.val b = t.val b

theorem ideal_write (auto : Bool) (t : Ideal) (a : Int) (d : Byte)
    (h : (t.step auto (.write a d)).2.1 = 0) : Wrote t (t.step auto (.write a d)).1 a d := by
  have e : t.step auto (.write a d) =
      if ¬ Valid a then (t, -1, 0#8)
      else if t.mapped (a.toNat / 256) then (t.set a.toNat d, 0, 0#8)
      else if auto then
        if t.free = 0 then (t, -4, 0#8) else ((t.map (a.toNat / 256)).set a.toNat d, 0, 0#8)
      else (t, -2, 0#8) := rfl
  rw [e] at h ⊢
  by_cases hv : Valid a
  · rw [if_neg (not_not_intro hv)] at h ⊢
    by_cases hm : t.mapped (a.toNat / 256) = true
    · rw [if_pos hm]
      exact ⟨hv, hm, if_pos rfl, fun _ h => h, fun b hb _ => if_neg hb⟩
    · rw [if_neg hm] at h ⊢
      cases auto
      · exact absurd (show (-2 : Int) = 0 from h) (by decide)
      · simp only [if_true] at h ⊢
        by_cases hf : t.free = 0
        · rw [if_pos hf] at h
          exact absurd (show (-4 : Int) = 0 from h) (by decide)
        · rw [if_neg hf]
          refine ⟨hv, if_pos rfl, if_pos rfl, fun v h => ?_, fun b hb hbm => ?_⟩
          · show (if v = _ then true else t.mapped v) = true
            split
            · rfl
            · exact h
          · show (if b = a.toNat then d else if b / 256 = a.toNat / 256 then 0#8 else t.val b) = _
            rw [if_neg hb, if_neg]
            intro hx
            rw [hx] at hbm
            exact hm hbm
  · rw [if_pos hv] at h
    exact absurd (show (-1 : Int) = 0 from h) (by decide)

theorem ideal_write_result (auto : Bool) (t : Ideal) (a : Int) (d : Byte) :
    let r := (t.step auto (.write a d)).2.1
    r = 0 ∨ r = -1 ∨ r = -2 ∨ r = -4 := by
  have e : t.step auto (.write a d) =
      if ¬ Valid a then (t, -1, 0#8)
      else if t.mapped (a.toNat / 256) then (t.set a.toNat d, 0, 0#8)
      else if auto then
        if t.free = 0 then (t, -4, 0#8) else ((t.map (a.toNat / 256)).set a.toNat d, 0, 0#8)
      else (t, -2, 0#8) := rfl
  rw [e]
  dsimp only
  repeat' split
  all_goals simp

theorem writable_keep {t t' : Ideal} (h : ∀ v, t.mapped v = true → t'.mapped v = true) {a : Int}
    (hw : Writable c t a) : Writable c t' a := hw.imp id fun hm hv => h _ (hm hv)

/-- A sequence of writes that all succeed. -/
theorem writes_rel (hE : ∀ k, E.fault k = none) (hA : AreaOk E c) (l : List (Int × Byte)) :
    ∀ {p torn : Bool} {s : St} {t : Ideal} {n : Nat}, Rel c p torn s t n →
      (∀ x ∈ l, Writable c t x.1) → (l.map Prod.fst).Nodup →
      (∀ k (hk : k < l.length), (writeMem E c
        ((l.take k).foldl (fun s x => (writeMem E c s x.1 x.2).1) s) l[k].1 l[k].2).2 = 0) →
      ∃ p' t' n', Rel c p' torn (l.foldl (fun s x => (writeMem E c s x.1 x.2).1) s) t' n' ∧
        (∀ x ∈ l, Valid x.1 ∧ t'.mapped (x.1.toNat / 256) = true ∧ t'.val x.1.toNat = x.2) ∧
        (∀ v, t.mapped v = true → t'.mapped v = true) ∧
        ∀ b : Nat, (b : Int) ∉ l.map Prod.fst → t.mapped (b / 256) = true → t'.val b = t.val b := by
  induction l with
  | nil =>
    intro p torn s t n h _ _ _
    exact ⟨p, t, n, h, by simp, fun _ h => h, fun _ _ _ => rfl⟩
  | cons x l ih =>
    intro p torn s t n h hw hnd hres
    obtain ⟨⟨n1, h1⟩, h2, _, _⟩ := write_rel hE hA h x.1 x.2 (hw x (List.mem_cons_self ..))
    have h0 := hres 0 (by simp)
    simp only [List.take_zero, List.foldl_nil, List.getElem_cons_zero] at h0
    have hwr := ideal_write c.autoAddPage t x.1 x.2 (by rw [← h2, h0])
    obtain ⟨t1, et⟩ : ∃ t1, (t.step c.autoAddPage (.write x.1 x.2)).1 = t1 := ⟨_, rfl⟩
    rw [et] at h1 hwr
    have hnd' := List.nodup_cons.1 (by simpa using hnd : (x.1 :: l.map Prod.fst).Nodup)
    obtain ⟨p', t', n', i1, i2, i3, i4⟩ := ih h1
      (fun y hy => writable_keep hwr.keepMapped (hw y (List.mem_cons_of_mem _ hy))) hnd'.2
      (fun k hk => by
        have := hres (k + 1) (by simpa using hk)
        simpa using this)
    refine ⟨p', t', n', i1, ?_, fun v hv => i3 v (hwr.keepMapped v hv), ?_⟩
    · intro y hy
      rcases List.mem_cons.1 hy with rfl | hy
      · refine ⟨hwr.valid, i3 _ hwr.mapped, ?_⟩
        rw [i4 y.1.toNat ?_ hwr.mapped, hwr.val]
        have := hwr.valid
        unfold Valid at this
        rw [show ((y.1.toNat : Nat) : Int) = y.1 by omega]
        exact hnd'.1
      · exact i2 y hy
    · intro b hb hbm
      simp only [List.map_cons, List.mem_cons, not_or] at hb
      rw [i4 b hb.2 (hwr.keepMapped _ hbm), hwr.keepVal b ?_ hbm]
      have hx1 := hwr.valid
      have hx2 := hb.1
      unfold Valid at hx1
      omega

/-- A read of a mapped address. -/
theorem read_mapped (hE : ∀ k, E.fault k = none) (hA : AreaOk E c) {p torn : Bool} {s : St}
    {t : Ideal} {n : Nat} (h : Rel c p torn s t n) {a : Int} (hv : Valid a)
    (hm : t.mapped (a.toNat / 256) = true) (f : Bool) :
    Rel c p torn (readMem E c s a f).1 t n ∧ (readMem E c s a f).2 = (0, t.val a.toNat) := by
  obtain ⟨h1, h2, _⟩ := read_rel hE hA h a f true
  refine ⟨h1, ?_⟩
  rw [h2]
  show (if ¬ Valid a then (t, -1, 0#8)
    else if t.mapped (a.toNat / 256) then (t, 0, t.val a.toNat) else (t, -2, 0#8)).2 = _
  rw [if_neg (not_not_intro hv), if_pos hm]

/-! ## Blocks -/

/-- The bytes of a block with their addresses. -/
def block : Int → List Byte → List (Int × Byte)
  | _, [] => []
  | a, d :: ds => (a, d) :: block (a + 1) ds

theorem block_ge {a : Int} {ds : List Byte} : ∀ x ∈ block a ds, a ≤ x.1 := by
  induction ds generalizing a with
  | nil => intro x hx; simp [block] at hx
  | cons d ds ih =>
    intro x hx
    rcases List.mem_cons.1 hx with rfl | hx
    · exact Int.le_refl _
    · have := ih x hx; omega

theorem block_nodup (a : Int) (ds : List Byte) : ((block a ds).map Prod.fst).Nodup := by
  induction ds generalizing a with
  | nil => simp [block]
  | cons d ds ih =>
    simp only [block, List.map_cons, List.nodup_cons]
    refine ⟨fun h => ?_, ih _⟩
    obtain ⟨x, hx, he⟩ := List.mem_map.1 h
    have := block_ge x hx
    omega

theorem writeMemPtr_fold (ds : List Byte) : ∀ (s : St) (a : Int), (writeMemPtr E c s a ds).2 = 0 →
    (writeMemPtr E c s a ds).1 = (block a ds).foldl (fun s x => (writeMem E c s x.1 x.2).1) s ∧
    ∀ k (hk : k < (block a ds).length), (writeMem E c
      (((block a ds).take k).foldl (fun s x => (writeMem E c s x.1 x.2).1) s)
        (block a ds)[k].1 (block a ds)[k].2).2 = 0 := by
  induction ds with
  | nil => intro s a _; exact ⟨rfl, fun k hk => absurd hk (by simp [block])⟩
  | cons d ds ih =>
    intro s a h
    have e : writeMemPtr E c s a (d :: ds) = if (writeMem E c s a d).2 ≠ SUCCESS
      then writeMem E c s a d else writeMemPtr E c (writeMem E c s a d).1 (a + 1) ds := rfl
    rw [e] at h ⊢
    by_cases h0 : (writeMem E c s a d).2 = SUCCESS
    · rw [if_neg (not_not_intro h0)] at h ⊢
      obtain ⟨i1, i2⟩ := ih _ _ h
      refine ⟨i1, fun k hk => ?_⟩
      cases k with
      | zero => exact h0
      | succ k => exact i2 k (by simpa [block] using hk)
    · rw [if_pos h0] at h
      exact absurd h h0

theorem readMemPtr_mapped (hE : ∀ k, E.fault k = none) (hA : AreaOk E c) (f : Bool)
    (ds : List Byte) : ∀ {p torn : Bool} {s : St} {t : Ideal} {n : Nat} {a : Int},
      Rel c p torn s t n →
      (∀ x ∈ block a ds, Valid x.1 ∧ t.mapped (x.1.toNat / 256) = true ∧ t.val x.1.toNat = x.2) →
      (readMemPtr E c f ds.length s a).2 = (0, ds) := by
  induction ds with
  | nil => intros; rfl
  | cons d ds ih =>
    intro p torn s t n a h hx
    obtain ⟨x1, x2, x3⟩ := hx (a, d) (List.mem_cons_self ..)
    obtain ⟨h1, h2⟩ := read_mapped hE hA h x1 x2 f
    have hi := ih h1 (a := a + 1) (fun y hy => hx y (List.mem_cons_of_mem _ hy))
    have e : readMemPtr E c f (ds.length + 1) s a =
        let r := readMem E c s a f
        if r.2.1 ≠ SUCCESS then (r.1, r.2.1, [r.2.2])
        else
          let r2 := readMemPtr E c f ds.length r.1 (a + 1)
          (r2.1, r2.2.1, r.2.2 :: r2.2.2) := rfl
    rw [List.length_cons, e]
    dsimp only
    rw [h2]
    rw [if_neg (show ¬ (0, t.val (a, d).1.toNat).1 ≠ SUCCESS from not_not_intro rfl), hi]
    simp only [x3]

/-- C59: a block that `writeMemPtr` has stored without error is returned by `readMemPtr`, whatever
was done before; and bytes outside the block keep their values. -/
theorem C59_block_round_trip (hE : ∀ k, E.fault k = none) (hA : AreaOk E c) {s : St} {t : Ideal}
    (h : Reached E c s t) (a : Int) (ds : List Byte)
    (hw : ∀ i : Nat, i < ds.length → Writable c t (a + i))
    (hok : (writeMemPtr E c s a ds).2 = 0) (force : Bool) :
    (readMemPtr E c force ds.length (writeMemPtr E c s a ds).1 a).2 = (0, ds) ∧
    ∀ b : Nat, (b : Int) < a ∨ a + ds.length ≤ b → b < 0x10000 → t.mapped (b / 256) = true →
      (readMem E c (writeMemPtr E c s a ds).1 b force).2 = (0, t.val b) := by
  obtain ⟨p, tn, n, hr⟩ := h.rel hE hA
  obtain ⟨w1, w2⟩ := writeMemPtr_fold ds s a hok
  have hlt : ∀ (ds : List Byte) (a : Int), ∀ x ∈ block a ds,
      ∃ i : Nat, i < ds.length ∧ x.1 = a + i := by
    intro ds
    induction ds with
    | nil => intro a x hx; simp [block] at hx
    | cons d ds ih =>
      intro a x hx
      rcases List.mem_cons.1 hx with rfl | hx
      · exact ⟨0, by simp, by simp⟩
      · obtain ⟨i, hi, he⟩ := ih _ x hx
        exact ⟨i + 1, by simpa using hi, by omega⟩
  obtain ⟨p', t', n', i1, i2, i3, i4⟩ := writes_rel hE hA (block a ds) hr
    (fun x hx => by
      obtain ⟨i, hi, he⟩ := hlt ds a x hx
      rw [he]; exact hw i hi) (block_nodup a ds) w2
  rw [w1]
  refine ⟨readMemPtr_mapped hE hA force ds i1 i2, ?_⟩
  intro b hb hb2 hbm
  have hval := i4 b (fun hc => by
    obtain ⟨x, hx, he⟩ := List.mem_map.1 hc
    obtain ⟨i, hi, he2⟩ := hlt ds a x hx
    omega) hbm
  have hv : Valid (b : Int) := by unfold Valid; omega
  have := (read_mapped hE hA i1 hv (by simpa using i3 _ hbm) force).2
  rw [this, Int.toNat_natCast, hval]

/-! ## Multi-byte values -/

theorem or_zero {x y : U32} (h : x ||| y = 0#32) : x = 0#32 ∧ y = 0#32 := by
  constructor
  · apply BitVec.eq_of_getLsbD_eq
    intro i hi
    have := congrArg (BitVec.getLsbD · i) h
    simp only [BitVec.getLsbD_or, BitVec.getLsbD_zero, Bool.or_eq_false_iff] at this ⊢
    exact this.1
  · apply BitVec.eq_of_getLsbD_eq
    intro i hi
    have := congrArg (BitVec.getLsbD · i) h
    simp only [BitVec.getLsbD_or, BitVec.getLsbD_zero, Bool.or_eq_false_iff] at this ⊢
    exact this.2

/-- The `writeMem` calls of `setUIntX`. -/
def valueBytes (big : Bool) (a : Int) (len : Nat) (val : U32) : List (Int × Byte) :=
  (List.range len).map fun (i : Nat) =>
    ((if big then a + len - i - 1 else a + i : Int), (val.sshiftRight (8 * i)).setWidth 8)

theorem sshiftRight_add (x : U32) (m n : Nat) :
    (x.sshiftRight m).sshiftRight n = x.sshiftRight (m + n) := by
  apply BitVec.eq_of_getLsbD_eq
  intro i hi
  simp only [BitVec.getLsbD_sshiftRight, BitVec.msb_sshiftRight]
  have h1 : ¬ 32 ≤ i := by omega
  simp only [h1, decide_false, Bool.not_false, Bool.true_and]
  by_cases h2 : n + i < 32
  · have h3 : ¬ 32 ≤ n + i := by omega
    simp only [h2, h3, if_true, decide_false, Bool.not_false, Bool.true_and, Nat.add_assoc]
  · have h4 : ¬ m + n + i < 32 := by omega
    simp only [h2, h4, if_false]

theorem setUIntX_fold (big : Bool) (s : St) (a : Int) (len : Nat) (val : U32) :
    (setUIntX E c big s a len val).1 =
      (valueBytes big a len val).foldl (fun s x => (writeMem E c s x.1 x.2).1) s ∧
    ((setUIntX E c big s a len val).2 = 0#32 → ∀ k (hk : k < (valueBytes big a len val).length),
      BitVec.ofInt 32 (writeMem E c
        (((valueBytes big a len val).take k).foldl (fun s x => (writeMem E c s x.1 x.2).1) s)
        (valueBytes big a len val)[k].1 (valueBytes big a len val)[k].2).2 = 0#32) := by
  have key : ∀ m, m ≤ len →
      let l := (List.range m).map fun (i : Nat) =>
        ((if big then a + len - i - 1 else a + i : Int), ((val.sshiftRight (8 * i)).setWidth 8 : Byte))
      let r := (List.range m).foldl (fun (x : St × U32 × U32) (i : Nat) =>
        let addr : Int := if big then a + len - i - 1 else a + i
        let r := writeMem E c x.1 addr (x.2.1.setWidth 8)
        (r.1, x.2.1.sshiftRight 8, x.2.2 ||| BitVec.ofInt 32 r.2)) (s, val, 0#32)
      r.1 = l.foldl (fun s x => (writeMem E c s x.1 x.2).1) s ∧ r.2.1 = val.sshiftRight (8 * m) ∧
      (r.2.2 = 0#32 → ∀ k (hk : k < l.length), BitVec.ofInt 32 (writeMem E c
        ((l.take k).foldl (fun s x => (writeMem E c s x.1 x.2).1) s) l[k].1 l[k].2).2 = 0#32) := by
    intro m
    induction m with
    | zero => intro _; exact ⟨rfl, by simp, fun _ k hk => absurd hk (by simp)⟩
    | succ m ih =>
      intro hm l r
      obtain ⟨i1, i2, i3⟩ := ih (by omega)
      obtain ⟨r0, er⟩ : ∃ r0, (List.range m).foldl (fun (x : St × U32 × U32) (i : Nat) =>
        let addr : Int := if big then a + len - i - 1 else a + i
        let r := writeMem E c x.1 addr (x.2.1.setWidth 8)
        (r.1, x.2.1.sshiftRight 8, x.2.2 ||| BitVec.ofInt 32 r.2)) (s, val, 0#32) = r0 := ⟨_, rfl⟩
      obtain ⟨l0, el⟩ : ∃ l0, ((List.range m).map fun (i : Nat) =>
        ((if big then a + len - i - 1 else a + i : Int),
          ((val.sshiftRight (8 * i)).setWidth 8 : Byte))) = l0 := ⟨_, rfl⟩
      rw [er, el] at i1
      rw [er] at i2
      rw [er, el] at i3
      have hl : l = l0 ++ [((if big then a + len - m - 1 else a + m : Int),
          ((val.sshiftRight (8 * m)).setWidth 8 : Byte))] := by
        show (List.range (m + 1)).map _ = _
        rw [List.range_succ, List.map_append, el]
        rfl
      have hr : r = (let addr : Int := if big then a + len - m - 1 else a + m
          let w := writeMem E c r0.1 addr (r0.2.1.setWidth 8)
          (w.1, r0.2.1.sshiftRight 8, r0.2.2 ||| BitVec.ofInt 32 w.2)) := by
        show (List.range (m + 1)).foldl _ _ = _
        rw [List.range_succ, List.foldl_append, er]
        rfl
      have hlen : l0.length = m := by rw [← el]; simp
      rw [hl, hr]
      dsimp only
      refine ⟨?_, ?_, ?_⟩
      · rw [List.foldl_append, ← i1, i2]
        rfl
      · rw [i2, sshiftRight_add]
        congr 1
      · intro h0 k hk
        obtain ⟨h1, h2⟩ := or_zero h0
        by_cases hkm : k < l0.length
        · rw [List.take_append_of_le_length (by omega)]
          rw [List.getElem_append_left hkm]
          exact i3 h1 k hkm
        · have hk' : k = l0.length := by simp at hk; omega
          subst hk'
          rw [List.take_left, List.getElem_concat_length rfl, ← i1]
          dsimp only
          rw [← i2]
          exact h2
  obtain ⟨k1, _, k3⟩ := key len (Nat.le_refl _)
  exact ⟨k1, k3⟩

theorem valueBytes_nodup (big : Bool) (a : Int) (len : Nat) (val : U32) :
    ((valueBytes big a len val).map Prod.fst).Nodup := by
  unfold valueBytes
  rw [List.map_map]
  apply List.pairwise_map.2
  refine List.Pairwise.imp ?_ List.nodup_range
  intro x y hne h
  simp only [Function.comp] at h
  cases big
  · simp only [Bool.false_eq_true, if_false] at h; omega
  · simp only [if_true] at h; omega

theorem ofInt_result {r : Int} (hr : r = 0 ∨ r = -1 ∨ r = -2 ∨ r = -4)
    (h : BitVec.ofInt 32 r = 0#32) : r = 0 := by
  rcases hr with rfl | rfl | rfl | rfl
  · rfl
  all_goals exact absurd h (by decide)

/-- A sequence of writes whose results, as 32 bit numbers, are all zero. -/
theorem writes_rel32 (hE : ∀ k, E.fault k = none) (hA : AreaOk E c) (l : List (Int × Byte)) :
    ∀ {p torn : Bool} {s : St} {t : Ideal} {n : Nat}, Rel c p torn s t n →
      (∀ x ∈ l, Writable c t x.1) →
      (∀ k (hk : k < l.length), BitVec.ofInt 32 (writeMem E c
        ((l.take k).foldl (fun s x => (writeMem E c s x.1 x.2).1) s) l[k].1 l[k].2).2 = 0#32) →
      ∀ k (hk : k < l.length), (writeMem E c
        ((l.take k).foldl (fun s x => (writeMem E c s x.1 x.2).1) s) l[k].1 l[k].2).2 = 0 := by
  induction l with
  | nil => intro p torn s t n _ _ _ k hk; exact absurd hk (by simp)
  | cons x l ih =>
    intro p torn s t n h hw hres
    obtain ⟨⟨n1, h1⟩, h2, _, _⟩ := write_rel hE hA h x.1 x.2 (hw x (List.mem_cons_self ..))
    have h0 := hres 0 (by simp)
    simp only [List.take_zero, List.foldl_nil, List.getElem_cons_zero] at h0
    have hz : (writeMem E c s x.1 x.2).2 = 0 := by
      rw [h2] at h0 ⊢
      exact ofInt_result (ideal_write_result ..) h0
    have hwr := ideal_write c.autoAddPage t x.1 x.2 (by rw [← h2, hz])
    have hi := ih h1 (fun y hy => writable_keep hwr.keepMapped (hw y (List.mem_cons_of_mem _ hy)))
      (fun k hk => by
        have := hres (k + 1) (by simpa using hk)
        simpa using this)
    intro k hk
    cases k with
    | zero => simpa using hz
    | succ k =>
      have := hi k (by simpa using hk)
      simpa using this

/-- What a successful `setUIntX` does to the memory. -/
theorem setUIntX_rel (hE : ∀ k, E.fault k = none) (hA : AreaOk E c) {p torn : Bool} {s : St}
    {t : Ideal} {n : Nat} (h : Rel c p torn s t n) (big : Bool) (a : Int) (len : Nat) (val : U32)
    (hw : ∀ i : Nat, i < len → Writable c t (a + i))
    (hok : (setUIntX E c big s a len val).2 = 0#32) :
    ∃ p' t' n', Rel c p' torn (setUIntX E c big s a len val).1 t' n' ∧
      (∀ i : Nat, i < len → Valid (if big then a + len - i - 1 else a + i) ∧
        t'.mapped ((if big then a + len - i - 1 else a + i : Int).toNat / 256) = true ∧
        t'.val (if big then a + len - i - 1 else a + i : Int).toNat =
          (val.sshiftRight (8 * i)).setWidth 8) ∧
      (∀ v, t.mapped v = true → t'.mapped v = true) ∧
      ∀ b : Nat, (b : Int) < a ∨ a + len ≤ b → t.mapped (b / 256) = true → t'.val b = t.val b := by
  obtain ⟨f1, f2⟩ := setUIntX_fold (E := E) (c := c) big s a len val
  have hw' : ∀ x ∈ valueBytes big a len val, Writable c t x.1 := by
    intro x hx
    obtain ⟨i, hi, rfl⟩ := List.mem_map.1 hx
    have hi' := List.mem_range.1 hi
    cases big
    · exact hw i hi'
    · have := hw (len - 1 - i) (by omega)
      rw [show a + ((len - 1 - i : Nat) : Int) = a + len - i - 1 by omega] at this
      exact this
  obtain ⟨p', t', n', i1, i2, i3, i4⟩ := writes_rel hE hA _ h hw' (valueBytes_nodup big a len val)
    (writes_rel32 hE hA _ h hw' (f2 hok))
  refine ⟨p', t', n', f1 ▸ i1, fun i hi => ?_, i3, fun b hb => i4 b ?_⟩
  · exact i2 ((if big then a + len - i - 1 else a + i : Int), (val.sshiftRight (8 * i)).setWidth 8)
      (List.mem_map.2 ⟨i, List.mem_range.2 hi, rfl⟩)
  · intro hc
    obtain ⟨x, hx, he⟩ := List.mem_map.1 hc
    obtain ⟨i, hi, rfl⟩ := List.mem_map.1 hx
    have hi' := List.mem_range.1 hi
    cases big
    · simp only [Bool.false_eq_true, if_false] at he; omega
    · simp only [if_true] at he; omega

/-- What `getUIntX` returns when all bytes are mapped. -/
theorem getUIntX_rel (hE : ∀ k, E.fault k = none) (hA : AreaOk E c) {p torn : Bool} {s : St}
    {t : Ideal} {n : Nat} (h : Rel c p torn s t n) (big : Bool) (a : Int) (len : Nat)
    (hm : ∀ i : Nat, i < len → Valid (a + i) ∧ t.mapped ((a + i : Int).toNat / 256) = true) :
    Rel c p torn (getUIntX E c big s a len).1 t n ∧
    (getUIntX E c big s a len).2 = (List.range len).foldl (fun (x : U32) (i : Nat) =>
      (x <<< 8) ||| (t.val (if big then a + i else a + len - i - 1 : Int).toNat).setWidth 32) 0#32 := by
  have key : ∀ m, m ≤ len →
      let r := (List.range m).foldl (fun (x : St × U32) (i : Nat) =>
        let addr : Int := if big then a + i else a + len - i - 1
        let r := readMem E c x.1 addr false
        (r.1, (x.2 <<< 8) ||| r.2.2.setWidth 32)) (s, 0#32)
      Rel c p torn r.1 t n ∧ r.2 = (List.range m).foldl (fun (x : U32) (i : Nat) =>
        (x <<< 8) ||| (t.val (if big then a + i else a + len - i - 1 : Int).toNat).setWidth 32) 0#32 := by
    intro m
    induction m with
    | zero => intro _; exact ⟨h, rfl⟩
    | succ m ih =>
      intro hlt
      obtain ⟨j1, j2⟩ := ih (by omega)
      rw [List.range_succ, List.foldl_append, List.foldl_append]
      simp only [List.foldl_cons, List.foldl_nil]
      have hmm : Valid (if big then a + m else a + len - m - 1) ∧
          t.mapped ((if big then a + m else a + len - m - 1 : Int).toNat / 256) = true := by
        cases big
        · have := hm (len - m - 1) (by omega)
          rw [show a + ((len - m - 1 : Nat) : Int) = a + len - m - 1 by omega] at this
          exact this
        · exact hm m (by omega)
      obtain ⟨r1, r2⟩ := read_mapped hE hA j1 hmm.1 hmm.2 false
      refine ⟨r1, ?_⟩
      rw [r2, ← j2]
  exact key len (Nat.le_refl _)

theorem join2 (d : Word) :
    (((0#32 <<< 8 ||| (((d.setWidth 32).sshiftRight 8).setWidth 8 : Byte).setWidth 32) <<< 8 |||
      (((d.setWidth 32).sshiftRight 0).setWidth 8 : Byte).setWidth 32).setWidth 16 : Word) = d := by
  apply BitVec.eq_of_getLsbD_eq
  intro i hi
  have hm : (d.setWidth 32).msb = false := by
    rw [BitVec.msb_setWidth]; simp
  simp only [BitVec.getLsbD_setWidth, BitVec.getLsbD_or, BitVec.getLsbD_shiftLeft,
    BitVec.getLsbD_sshiftRight, BitVec.getLsbD_zero, hm]
  by_cases h8 : i < 8
  · have : i < 32 := by omega
    have h3 : ¬ 32 ≤ i := by omega
    simp [h8, this, h3, hi]
  · have h1 : i < 32 := by omega
    have h3 : ¬ 32 ≤ i - 8 := by omega
    have h4 : i - 8 < 32 := by omega
    have h5 : i - 8 < 8 := by omega
    have h6 : 8 + (i - 8) = i := by omega
    simp [h8, h1, h3, h4, h5, h6, hi]

theorem join4 (d : U32) :
    ((((0#32 <<< 8 ||| ((d.sshiftRight 24).setWidth 8 : Byte).setWidth 32) <<< 8 |||
      ((d.sshiftRight 16).setWidth 8 : Byte).setWidth 32) <<< 8 |||
      ((d.sshiftRight 8).setWidth 8 : Byte).setWidth 32) <<< 8 |||
      ((d.sshiftRight 0).setWidth 8 : Byte).setWidth 32) = d := by
  apply BitVec.eq_of_getLsbD_eq
  intro i hi
  simp only [BitVec.getLsbD_setWidth, BitVec.getLsbD_or, BitVec.getLsbD_shiftLeft,
    BitVec.getLsbD_sshiftRight, BitVec.getLsbD_zero]
  rcases (by omega : i < 8 ∨ (8 ≤ i ∧ i < 16) ∨ (16 ≤ i ∧ i < 24) ∨ (24 ≤ i ∧ i < 32))
    with h | h | h | h
  · have h1 : i < 32 := by omega
    have h3 : ¬ 32 ≤ i := by omega
    simp [h, h1, h3]
  · have h0 : ¬ i < 8 := by omega
    have h1 : i < 32 := by omega
    have h2 : i - 8 < 8 := by omega
    have h3 : i - 8 < 32 := by omega
    have h4 : ¬ 32 ≤ i - 8 := by omega
    have h5 : 8 + (i - 8) = i := by omega
    simp [h0, h1, h2, h3, h4, h5]
  · have h0 : ¬ i < 8 := by omega
    have h1 : i < 32 := by omega
    have h2 : ¬ i - 8 < 8 := by omega
    have h3 : i - 8 < 32 := by omega
    have h4 : i - 8 - 8 < 8 := by omega
    have h5 : i - 8 - 8 < 32 := by omega
    have h6 : ¬ 32 ≤ i - 8 - 8 := by omega
    have h7 : 16 + (i - 8 - 8) = i := by omega
    simp [h0, h1, h2, h3, h4, h5, h6, h7]
  · have h0 : ¬ i < 8 := by omega
    have h1 : i < 32 := by omega
    have h2 : ¬ i - 8 < 8 := by omega
    have h3 : i - 8 < 32 := by omega
    have h4 : ¬ i - 8 - 8 < 8 := by omega
    have h5 : i - 8 - 8 < 32 := by omega
    have h6 : i - 8 - 8 - 8 < 8 := by omega
    have h7 : i - 8 - 8 - 8 < 32 := by omega
    have h8 : ¬ 32 ≤ i - 8 - 8 - 8 := by omega
    have h9 : 24 + (i - 8 - 8 - 8) = i := by omega
    simp [h0, h1, h2, h3, h4, h5, h6, h7, h8, h9]

/-- The bytes that `setUIntX` has stored, at their addresses in order. -/
theorem stored {t' : Ideal} {big : Bool} {a : Int} {len : Nat} {val : U32}
    (h : ∀ i : Nat, i < len → Valid (if big then a + len - i - 1 else a + i) ∧
      t'.mapped ((if big then a + len - i - 1 else a + i : Int).toNat / 256) = true ∧
      t'.val (if big then a + len - i - 1 else a + i : Int).toNat =
        (val.sshiftRight (8 * i)).setWidth 8) :
    (∀ i : Nat, i < len → Valid (a + i) ∧ t'.mapped ((a + i : Int).toNat / 256) = true) ∧
    ∀ i : Nat, i < len → t'.val (if big then a + i else a + len - i - 1 : Int).toNat =
      (val.sshiftRight (8 * (len - 1 - i))).setWidth 8 := by
  cases big
  · refine ⟨fun i hi => ⟨(h i hi).1, (h i hi).2.1⟩, fun i hi => ?_⟩
    have := (h (len - 1 - i) (by omega)).2.2
    simp only [Bool.false_eq_true, if_false] at this ⊢
    rw [← this]
    congr 2
    omega
  · refine ⟨fun i hi => ?_, fun i hi => ?_⟩
    · have := h (len - 1 - i) (by omega)
      simp only [if_true] at this
      rw [show a + (len : Int) - ((len - 1 - i : Nat) : Int) - 1 = a + i by omega] at this
      exact ⟨this.1, this.2.1⟩
    · have := (h (len - 1 - i) (by omega)).2.2
      simp only [if_true] at this ⊢
      rw [← this]
      congr 2
      omega

/-- C59: a 16 bit number that `setUInt16` has stored without error is returned by `getUInt16`, in
both byte orders, and bytes outside it keep their values. -/
theorem C59_uint16_round_trip (hE : ∀ k, E.fault k = none) (hA : AreaOk E c) {s : St} {t : Ideal}
    (h : Reached E c s t) (big : Bool) (a : Int) (d : Word)
    (hw : ∀ i : Nat, i < 2 → Writable c t (a + i))
    (hok : (setUInt16 E c big s a d).2 = 0#32) :
    (getUInt16 E c big (setUInt16 E c big s a d).1 a).2 = d ∧
    ∀ b : Nat, (b : Int) < a ∨ a + 2 ≤ b → b < 0x10000 → t.mapped (b / 256) = true →
      (readMem E c (setUInt16 E c big s a d).1 b false).2 = (0, t.val b) := by
  obtain ⟨p, tn, n, hr⟩ := h.rel hE hA
  obtain ⟨p', t', n', i1, i2, i3, i4⟩ := setUIntX_rel hE hA hr big a 2 (d.setWidth 32) hw hok
  obtain ⟨s1, s2⟩ := stored i2
  constructor
  · have hg := (getUIntX_rel hE hA i1 big a 2 s1).2
    show ((getUIntX E c big (setUIntX E c big s a 2 (d.setWidth 32)).1 a 2).2).setWidth 16 = d
    rw [hg]
    have e0 := s2 0 (by decide)
    have e1 := s2 1 (by decide)
    show ((0#32 <<< 8 ||| (t'.val _).setWidth 32) <<< 8 ||| (t'.val _).setWidth 32).setWidth 16 = d
    rw [e0, e1]
    exact join2 d
  · intro b hb hb2 hbm
    have hv : Valid (b : Int) := by unfold Valid; omega
    have := (read_mapped hE hA i1 hv (by simpa using i3 _ hbm) false).2
    show (readMem E c (setUIntX E c big s a 2 (d.setWidth 32)).1 b false).2 = _
    rw [this, Int.toNat_natCast, i4 b hb hbm]

/-- C59: the same for 32 bit numbers. -/
theorem C59_uint32_round_trip (hE : ∀ k, E.fault k = none) (hA : AreaOk E c) {s : St} {t : Ideal}
    (h : Reached E c s t) (big : Bool) (a : Int) (d : U32)
    (hw : ∀ i : Nat, i < 4 → Writable c t (a + i))
    (hok : (setUInt32 E c big s a d).2 = 0#32) :
    (getUInt32 E c big (setUInt32 E c big s a d).1 a).2 = d ∧
    ∀ b : Nat, (b : Int) < a ∨ a + 4 ≤ b → b < 0x10000 → t.mapped (b / 256) = true →
      (readMem E c (setUInt32 E c big s a d).1 b false).2 = (0, t.val b) := by
  obtain ⟨p, tn, n, hr⟩ := h.rel hE hA
  obtain ⟨p', t', n', i1, i2, i3, i4⟩ := setUIntX_rel hE hA hr big a 4 d hw hok
  obtain ⟨s1, s2⟩ := stored i2
  constructor
  · have hg := (getUIntX_rel hE hA i1 big a 4 s1).2
    show (getUIntX E c big (setUIntX E c big s a 4 d).1 a 4).2 = d
    rw [hg]
    have e0 := s2 0 (by decide)
    have e1 := s2 1 (by decide)
    have e2 := s2 2 (by decide)
    have e3 := s2 3 (by decide)
    show ((((0#32 <<< 8 ||| (t'.val _).setWidth 32) <<< 8 ||| (t'.val _).setWidth 32) <<< 8 |||
      (t'.val _).setWidth 32) <<< 8 ||| (t'.val _).setWidth 32) = d
    rw [e0, e1, e2, e3]
    exact join4 d
  · intro b hb hb2 hbm
    have hv : Valid (b : Int) := by unfold Valid; omega
    have := (read_mapped hE hA i1 hv (by simpa using i3 _ hbm) false).2
    show (readMem E c (setUIntX E c big s a 4 d).1 b false).2 = _
    rw [this, Int.toNat_natCast, i4 b hb hbm]

/-- C59: with big endian order the most significant byte is at the lowest address, with little
endian order at the highest. -/
theorem C59_layout (hE : ∀ k, E.fault k = none) (hA : AreaOk E c) {s : St} {t : Ideal}
    (h : Reached E c s t) (big : Bool) (a : Int) (d : U32)
    (hw : ∀ i : Nat, i < 4 → Writable c t (a + i))
    (hok : (setUInt32 E c big s a d).2 = 0#32) (i : Nat) (hi : i < 4) :
    (readMem E c (setUInt32 E c big s a d).1 (a + i) false).2 =
      (0, BitVec.ofNat 8 (d.toNat / 256 ^ (if big then 3 - i else i))) := by
  obtain ⟨p, tn, n, hr⟩ := h.rel hE hA
  obtain ⟨p', t', n', i1, i2, i3, i4⟩ := setUIntX_rel hE hA hr big a 4 d hw hok
  obtain ⟨s1, s2⟩ := stored i2
  have hrd := (read_mapped hE hA i1 (s1 i hi).1 (s1 i hi).2 false).2
  show (readMem E c (setUIntX E c big s a 4 d).1 (a + i) false).2 = _
  rw [hrd]
  have hb : ∀ k : Nat, k < 4 → ((d.sshiftRight (8 * k)).setWidth 8 : Byte) =
      BitVec.ofNat 8 (d.toNat / 256 ^ k) := by
    intro k hk
    have h1 : ((d.sshiftRight (8 * k)).setWidth 8 : Byte) = (d >>> (8 * k)).setWidth 8 := by
      apply BitVec.eq_of_getLsbD_eq
      intro j hj
      have h2 : j < 32 := by omega
      have h3 : ¬ 32 ≤ j := by omega
      have h4 : 8 * k + j < 32 := by omega
      simp only [BitVec.getLsbD_setWidth, BitVec.getLsbD_sshiftRight, BitVec.getLsbD_ushiftRight,
        h3, h4, hj, if_true, decide_false, Bool.not_false, Bool.true_and]
    rw [h1]
    apply BitVec.eq_of_toNat_eq
    rw [BitVec.toNat_setWidth, BitVec.toNat_ushiftRight, Nat.shiftRight_eq_div_pow, Nat.pow_mul,
      BitVec.toNat_ofNat]
  cases big
  · have := (i2 i hi).2.2
    simp only [Bool.false_eq_true, if_false] at this ⊢
    rw [this, hb i hi]
  · have := s2 i hi
    simp only [if_true] at this ⊢
    rw [this, hb _ (by omega)]

/-! ## The hypotheses can be met -/

theorem dReached : Reached dEnv dCfg (run dEnv dCfg (ctor dCfg ⟨dFlash, 0⟩) dOps).1
    (Ideal.run dCfg.autoAddPage (emptyIdeal dCfg) dOps).1 :=
  ⟨dFlash, dOps, dFresh, dOps_ok, rfl, rfl⟩

theorem dWritable (a : Int) : Writable dCfg (Ideal.run dCfg.autoAddPage (emptyIdeal dCfg) dOps).1 a :=
  Or.inl rfl

/-- A number across a page boundary, both orders. -/
example : (setUInt32 dEnv dCfg true (run dEnv dCfg (ctor dCfg ⟨dFlash, 0⟩) dOps).1 0x80fe
    0x89abcdef#32).2 = 0#32 := by decide +kernel
example : (setUInt16 dEnv dCfg false (run dEnv dCfg (ctor dCfg ⟨dFlash, 0⟩) dOps).1 0x80ff
    0x89ab#16).2 = 0#32 := by decide +kernel
example : (writeMemPtr dEnv dCfg (run dEnv dCfg (ctor dCfg ⟨dFlash, 0⟩) dOps).1 0x80fe
    [1, 2, 3, 4, 5]).2 = 0 := by decide +kernel

/-- C59, finding: the values of the same memory differ between the byte orders, and the constructor
leaves the order undefined: until `setEndianess` is called the result depends on what was in RAM. -/
theorem C59_order_matters :
    let s := (setUInt16 dEnv dCfg true (run dEnv dCfg (ctor dCfg ⟨dFlash, 0⟩) dOps).1 0x8010 0x1234#16).1
    (getUInt16 dEnv dCfg true s 0x8010).2 = 0x1234#16 ∧
    (getUInt16 dEnv dCfg false s 0x8010).2 = 0x3412#16 := by decide +kernel

end Verif.MemMap
