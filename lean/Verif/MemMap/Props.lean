import Verif.MemMap.Table

/-!
# C30 and C31: virtual memory in flash
-/

namespace Verif.MemMap

open Verif.Iap

variable {E : Env} {c : Cfg}

/-! ## C30 — reads return what was written -/

/-- One operation of a disciplined history. -/
theorem step_rel (hE : ∀ k, E.fault k = none) (hA : AreaOk E c) {pending torn : Bool} {s : St}
    {t : Ideal} {n : Nat} (h : Rel c pending torn s t n) (op : Op) (ops : List Op)
    (hd : Disciplined c.autoAddPage t pending torn (op :: ops)) :
    ∃ pending' torn' n',
      Rel c pending' torn' (step E c s op).1 (t.step c.autoAddPage op).1 n' ∧
      Disciplined c.autoAddPage (t.step c.autoAddPage op).1 pending' torn' ops ∧
      (step E c s op).2 = (t.step c.autoAddPage op).2 ∧
      (torn' = false → torn = false) := by
  cases op with
  | write a d =>
    obtain ⟨⟨n', h1⟩, h2, h3, _⟩ := write_rel hE hA h a d hd.1
    exact ⟨true, torn, n', h1, hd.2, Prod.ext h2 h3.symm, id⟩
  | read a f =>
    obtain ⟨h1, h2, _⟩ := read_rel hE hA h a f c.autoAddPage
    refine ⟨pending, torn, n, ?_, hd, h2, id⟩
    have : (t.step c.autoAddPage (.read a f)).1 = t := by
      show (if ¬ Valid a then (t, -1, 0#8)
        else if t.mapped (a.toNat / 256) then (t, 0, t.val a.toNat) else (t, -2, 0#8)).1 = t
      split
      · rfl
      · split <;> rfl
    rw [this]
    exact h1
  | addRange a len =>
    obtain ⟨hp, ⟨d1, d2, d3⟩, d4⟩ := hd
    subst hp
    obtain ⟨⟨n', h1⟩, h2, h3⟩ := addRange_rel (auto := c.autoAddPage) hE hA h a len d1 d2 d3
    refine ⟨false, _, n', h1, d4, Prod.ext h2 h3.symm, ?_⟩
    intro hc
    cases torn
    · rfl
    · simp at hc
  | flush => exact ⟨false, torn, n, (flush_rel hE hA h).1, hd, rfl, id⟩
  | restart =>
    obtain ⟨hp, ht, d⟩ := hd
    subst hp ht
    obtain ⟨n', h1⟩ := boot_rel hA h.boot
    exact ⟨false, false, n', h1, d, rfl, id⟩

theorem run_rel (hE : ∀ k, E.fault k = none) (hA : AreaOk E c) (ops : List Op) :
    ∀ {pending torn : Bool} {s : St} {t : Ideal} {n : Nat}, Rel c pending torn s t n →
      Disciplined c.autoAddPage t pending torn ops →
      (run E c s ops).2 = (Ideal.run c.autoAddPage t ops).2 := by
  induction ops with
  | nil => intros; rfl
  | cons op ops ih =>
    intro pending torn s t n h hd
    obtain ⟨p', t', n', h1, h2, h3, _⟩ := step_rel hE hA h op ops hd
    show (step E c s op).2 :: (run E c (step E c s op).1 ops).2 = _ :: _
    rw [h3, ih h1 h2]

theorem fresh_boot (hA : AreaOk E c) {hw : Hw} (hf : FreshArea c hw.flash) :
    Boot c hw (emptyIdeal c) := by
  obtain ⟨f1, f2, f3, f4, f5⟩ := hA.facts
  have e : ∀ v, v < 256 → hw.flash (c.basePage * 256 + v) = 0xff#8 := fun v hv => by
    rw [f1]; exact hf v hv
  refine ⟨⟨0, by omega, empty_tbl e, ?_⟩, ?_, ?_⟩
  · show c.flashSize / 256 - 1 + 0 + 1 = c.flashSize / 256
    have : c.sizePages = c.flashSize / 256 := rfl
    omega
  · intro v hv
    show false = _
    rw [e v hv]
    exact (decide_eq_false (not_not_intro (by decide : entry 0xff#8 = 0))).symm
  · intro v i hv _ hne
    rw [e v hv] at hne
    exact absurd (by decide) hne

/-- C30.  On working flash, every disciplined history of writes, reads, `addRange`, `doFlash` and
restarts yields, operation by operation, the return values and data of an ideal memory (`Ideal`):
reads return the last byte written to the address, other addresses keep their values, whatever the
order of accesses.

Missing for the full claim: histories that are not `Disciplined`, for which it is false
(`C30_unmapped_write_destroys_page_0`, `C30_addRange_drops_pending`, `C30_full_range_is_ignored`,
`C30_range_past_end`, `C30_out_of_memory_range_lost`), and failing flash. -/
theorem C30_read_your_writes_partial (hE : ∀ k, E.fault k = none) (hA : AreaOk E c) (f : Nat → Byte)
    (hf : FreshArea c f) (ops : List Op)
    (hd : Disciplined c.autoAddPage (emptyIdeal c) false false ops) :
    (run E c (ctor c ⟨f, 0⟩) ops).2 = (Ideal.run c.autoAddPage (emptyIdeal c) ops).2 := by
  obtain ⟨n, h⟩ := boot_rel hA (fresh_boot (hw := ⟨f, 0⟩) hA hf)
  exact run_rel hE hA ops h hd

/-- C30: the state after any disciplined history, expressed by one further read. -/
theorem C30_reads_last_write_partial (hE : ∀ k, E.fault k = none) (hA : AreaOk E c) (f : Nat → Byte)
    (hf : FreshArea c f) (ops : List Op)
    (hd : Disciplined c.autoAddPage (emptyIdeal c) false false ops) (a : Int) (force : Bool) :
    let t := (Ideal.run c.autoAddPage (emptyIdeal c) ops).1
    (readMem E c (run E c (ctor c ⟨f, 0⟩) ops).1 a force).2 =
      if ¬ Valid a then (-1, 0#8)
      else if t.mapped (a.toNat / 256) then (0, t.val a.toNat) else (-2, 0#8) := by
  intro t
  have key : ∀ (ops : List Op) {pending torn : Bool} {s : St} {t : Ideal} {n : Nat},
      Rel c pending torn s t n → Disciplined c.autoAddPage t pending torn ops →
      ∃ p t' n', Rel c p t' (run E c s ops).1 (Ideal.run c.autoAddPage t ops).1 n' := by
    intro ops
    induction ops with
    | nil => intro p t' s t n h _; exact ⟨p, t', n, h⟩
    | cons op ops ih =>
      intro pending torn s t n h hd
      obtain ⟨p', t', n', h1, h2, _, _⟩ := step_rel hE hA h op ops hd
      exact ih h1 h2
  obtain ⟨n, h⟩ := boot_rel hA (fresh_boot (hw := ⟨f, 0⟩) hA hf)
  obtain ⟨p, t', n', hr⟩ := key ops h hd
  rw [(read_rel hE hA hr a force c.autoAddPage).2.1]
  show (if ¬ Valid a then _ else _ : Ideal × Int × Byte).2 = _
  split
  · rfl
  · split <;> rfl

/-- C30: a corrupt allocation table is recognised; after a first `doFlash` the memory is empty. -/
theorem C30_corrupt_table (hE : ∀ k, E.fault k = none) (hA : AreaOk E c) (f : Nat → Byte)
    (hf : CorruptTable c f) (ops : List Op)
    (hd : Disciplined c.autoAddPage (emptyIdeal c) false false ops) :
    (run E c (ctor c ⟨f, 0⟩) (.flush :: ops)).2 =
      (0, 0#8) :: (Ideal.run c.autoAddPage (emptyIdeal c) ops).2 := by
  obtain ⟨f1, f2, f3, f4, f5⟩ := hA.facts
  have hz : 2 ≤ (List.range 0x100).countP (fun i => f (c.flashBase + i) == 0#8) := by
    rcases start_flashTbl hA (Or.inr hf) with ⟨m, _, ht⟩ | h
    · obtain ⟨i, j, hij, hj, hi0, hj0⟩ := hf
      rw [← f1] at hi0 hj0
      have := ht.inj i j (by omega) hj (by rw [hi0]; decide) (by rw [hi0, hj0])
      omega
    · rwa [f1] at h
  have e : ctor c ⟨f, 0⟩ = ⟨⟨f, 0⟩, fun _ => 0xff#8, fun _ => 0#8, 0, 0, false, true, false, false⟩ := by
    unfold ctor
    simp only [hz, decide_true, if_true]
  have h : Rel c true false (ctor c ⟨f, 0⟩) (emptyIdeal c) 0 := by
    rw [e]
    refine ⟨⟨rfl, rfl, empty_tbl fun _ _ => rfl, by omega, Or.inl rfl, Or.inl rfl,
      fun hc => (by cases hc), fun _ hc => absurd rfl hc⟩, ⟨fun v _ =>
        (decide_eq_false (not_not_intro (by decide : entry 0xff#8 = 0))).symm, ?_, ?_⟩,
      fun _ hc => (by cases hc), fun hc => (by cases hc)⟩
    · intro v i _ _ hne
      exact absurd (by decide : entry 0xff#8 = 0) hne
    · show c.flashSize / 256 - 1 + 0 + 1 = c.flashSize / 256
      have : c.sizePages = c.flashSize / 256 := rfl
      omega
  have := run_rel hE hA ops (flush_rel hE hA h).1 hd
  show (0, 0#8) :: (run E c (doFlash E c (ctor c ⟨f, 0⟩)) ops).2 = _
  rw [this]

/-! ### Power failure between two operations -/

/-- What the flash holds after one operation: what it held before, the content before the operation
or the content after it. -/
theorem step_boot (hE : ∀ k, E.fault k = none) (hA : AreaOk E c) {pending : Bool} {s : St}
    {t t0 : Ideal} {n : Nat} (h : Rel c pending false s t n) (hb : Boot c s.hw t0) (op : Op)
    {ops : List Op} (hd : Disciplined c.autoAddPage t pending false (op :: ops))
    (ht : ∀ a len, op = .addRange a len →
      ¬ ((t.step c.autoAddPage op).2.1 = -4 ∧ t.free ≠ 0)) :
    (op ≠ .flush ∧ Boot c (step E c s op).1.hw t0) ∨
    (op ≠ .flush ∧ Boot c (step E c s op).1.hw t) ∨
    Boot c (step E c s op).1.hw (t.step c.autoAddPage op).1 := by
  have hfl : Boot c (doFlash E c s).hw t := (flush_rel hE hA h).1.boot
  cases op with
  | write a d =>
    rcases (write_rel hE hA h a d hd.1).2.2.2 with e | e
    · exact Or.inl ⟨by simp, e ▸ hb⟩
    · exact Or.inr (Or.inl ⟨by simp, e ▸ hfl⟩)
  | read a f =>
    rcases (read_rel hE hA h a f c.autoAddPage).2.2 with e | e
    · exact Or.inl ⟨by simp, by show Boot c (readMem E c s a f).1.hw t0; rw [e]; exact hb⟩
    · exact Or.inr (Or.inl ⟨by simp, by show Boot c (readMem E c s a f).1.hw t; rw [e]; exact hfl⟩)
  | addRange a len =>
    obtain ⟨hp, ⟨d1, d2, d3⟩, d4⟩ := hd
    subst hp
    obtain ⟨⟨n', h1⟩, _, _⟩ := addRange_rel (auto := c.autoAddPage) hE hA h a len d1 d2 d3
    have hx := ht a len rfl
    have : ((t.step c.autoAddPage (.addRange a len)).2.1 == -4 && t.free != 0) = false := by
      by_cases h4 : (t.step c.autoAddPage (.addRange a len)).2.1 = -4
      · have : t.free = 0 := Classical.byContradiction fun hh => hx ⟨h4, hh⟩
        simp [this]
      · simp [h4]
    rw [this] at h1
    exact Or.inr (Or.inr h1.boot)
  | flush => exact Or.inr (Or.inr hfl)
  | restart => exact Or.inl ⟨by simp, hb⟩

theorem run_boot (hE : ∀ k, E.fault k = none) (hA : AreaOk E c) (ops : List Op) :
    ∀ {pending : Bool} {s : St} {t t0 : Ideal} {n : Nat}, Rel c pending false s t n →
      Boot c s.hw t0 → Disciplined c.autoAddPage t pending false (ops ++ [.flush, .restart]) →
      (Op.flush ∉ ops ∧ Boot c (run E c s ops).1.hw t0) ∨
      ∃ k, k ≤ ops.length ∧ Op.flush ∉ ops.drop k ∧
        Boot c (run E c s ops).1.hw (Ideal.run c.autoAddPage t (ops.take k)).1 := by
  have torn_stays : ∀ (ops : List Op) (t : Ideal) (p : Bool),
      ¬ Disciplined c.autoAddPage t p true (ops ++ [.flush, .restart]) := by
    intro ops
    induction ops with
    | nil => intro t p hd; exact absurd hd.2.1 (by decide)
    | cons op ops ih =>
      intro t p hd
      cases op with
      | write a d => exact ih _ _ hd.2
      | read a f => exact ih _ _ hd
      | addRange a len => exact ih _ _ (by have := hd.2.2; rwa [Bool.true_or] at this)
      | flush => exact ih _ _ hd
      | restart => exact absurd hd.2.1 (by decide)
  induction ops with
  | nil => intro pending s t t0 n _ hb _; exact Or.inl ⟨by simp, hb⟩
  | cons op ops ih =>
    intro pending s t t0 n h hb hd
    obtain ⟨p', torn', n', h1, h2, _, _⟩ := step_rel hE hA h op _ hd
    have ht : torn' = false := by
      cases torn'
      · rfl
      · exact absurd h2 (torn_stays ops _ _)
    subst ht
    have hno : ∀ a len, op = .addRange a len →
        ¬ ((t.step c.autoAddPage op).2.1 = -4 ∧ t.free ≠ 0) := by
      rintro a len rfl ⟨hx, hy⟩
      have hd' := hd.2.2
      rw [hx] at hd'
      simp only [Bool.false_or, beq_self_eq_true, Bool.true_and] at hd'
      rw [show (t.free != 0) = true by simpa using hy] at hd'
      exact torn_stays ops _ _ hd'
    have shift : ∀ k, k ≤ ops.length → Op.flush ∉ ops.drop k →
        Boot c (run E c (step E c s op).1 ops).1.hw
          (Ideal.run c.autoAddPage (t.step c.autoAddPage op).1 (ops.take k)).1 →
        ∃ k, k ≤ (op :: ops).length ∧ Op.flush ∉ (op :: ops).drop k ∧
          Boot c (run E c s (op :: ops)).1.hw
            (Ideal.run c.autoAddPage t ((op :: ops).take k)).1 := fun k k1 k2 k3 =>
      ⟨k + 1, by simpa using k1, by simpa using k2, k3⟩
    rcases step_boot hE hA h hb op hd hno with ⟨hne, hb1⟩ | ⟨hne, hb1⟩ | hb1
    · rcases ih h1 hb1 h2 with ⟨i1, i2⟩ | ⟨k, k1, k2, k3⟩
      · exact Or.inl ⟨by simp [Ne.symm hne, i1], i2⟩
      · exact Or.inr (shift k k1 k2 k3)
    · rcases ih h1 hb1 h2 with ⟨i1, i2⟩ | ⟨k, k1, k2, k3⟩
      · exact Or.inr ⟨0, Nat.zero_le _, by simp [Ne.symm hne, i1], i2⟩
      · exact Or.inr (shift k k1 k2 k3)
    · rcases ih h1 hb1 h2 with ⟨i1, i2⟩ | ⟨k, k1, k2, k3⟩
      · exact Or.inr (shift 0 (Nat.zero_le _) (by simpa using i1) i2)
      · exact Or.inr (shift k k1 k2 k3)

/-- C30: if power fails between two operations of a disciplined history, the memory comes back with
the content it had after some earlier operation, not before the last `doFlash`: from then on the
device behaves like the ideal memory continued from that point.  (That the history could be ended by
`doFlash` and a restart says that no `addRange` ran out of memory halfway.) -/
theorem C30_power_failure_partial (hE : ∀ k, E.fault k = none) (hA : AreaOk E c) (f : Nat → Byte)
    (hf : FreshArea c f) (ops : List Op)
    (hd : Disciplined c.autoAddPage (emptyIdeal c) false false (ops ++ [.flush, .restart])) :
    ∃ k, k ≤ ops.length ∧ Op.flush ∉ ops.drop k ∧
      let t := (Ideal.run c.autoAddPage (emptyIdeal c) (ops.take k)).1
      ∀ more, Disciplined c.autoAddPage t false false more →
        (run E c (ctor c (run E c (ctor c ⟨f, 0⟩) ops).1.hw) more).2 =
          (Ideal.run c.autoAddPage t more).2 := by
  have hb := fresh_boot (hw := ⟨f, 0⟩) hA hf
  obtain ⟨n, h⟩ := boot_rel hA hb
  have fin : ∀ {hw : Hw} {t : Ideal}, Boot c hw t → ∀ more,
      Disciplined c.autoAddPage t false false more →
      (run E c (ctor c hw) more).2 = (Ideal.run c.autoAddPage t more).2 := by
    intro hw t hb more hm
    obtain ⟨n, h⟩ := boot_rel hA hb
    exact run_rel hE hA more h hm
  rcases run_boot hE hA ops h (t0 := emptyIdeal c) hb hd with ⟨h1, h2⟩ | ⟨k, h1, h2, h3⟩
  · exact ⟨0, Nat.zero_le _, h1, fin h2⟩
  · exact ⟨k, h1, h2, fin h3⟩

/-! ## C31 — the allocation table -/

/-- C31.  After every history of operations and restarts (also restarts with unsaved data) on working
flash, two virtual pages never share a flash page, and every page lies inside the area behind the
page that holds the table.

Missing for the full claim: a power failure while the table is programmed
(`C31_interrupted_table_write`), areas of one page (`C31_one_page_area`) and ranges outside the
address space (`C30_range_past_end`), for all of which it is false. -/
theorem C31_distinct_pages_partial (hE : ∀ k, E.fault k = none) (hA : AreaOk E c) (f : Nat → Byte)
    (hf : FreshArea c f ∨ CorruptTable c f) (ops : List Op) (hr : ∀ op ∈ ops, InRange op) :
    let s := (run E c (ctor c ⟨f, 0⟩) ops).1
    (∀ v w, v < 256 → w < 256 → pageOf s v ≠ 0 → pageOf s v = pageOf s w → v = w) ∧
    ∀ v, v < 256 → pageOf s v ≠ 0 →
      c.flashBase / 256 < pageOf s v ∧ (pageOf s v + 1) * 256 ≤ c.flashBase + c.flashSize := by
  intro s
  obtain ⟨f1, f2, f3, f4, f5⟩ := hA.facts
  have h := run_tinv hE hA ops _ (ctor_tinv hA (hw := ⟨f, 0⟩) (f0 := f) (start_flashTbl hA hf)
    fun _ _ _ => rfl) hr
  obtain ⟨n, hn, ht, _⟩ := h.tbl
  refine ⟨fun v w hv hw hne he => ht.inj v w hv hw hne he, fun v hv hne => ?_⟩
  have hrg := ht.range v hv
  have hne' : entry (s.allocTable v) ≠ 0 := hne
  have hb := hA.basePage
  have hs : c.sizePages = c.flashSize / 256 := rfl
  have h1 := hA.base
  have h2 := hA.size
  have ht' : entry (s.allocTable v) = pageOf s v := rfl
  rw [ht', hb] at hrg
  omega

/-- C31: no history ever changes a byte outside the area, except (without `autoAddPage`) in flash
page 0, see `C30_unmapped_write_destroys_page_0`. -/
theorem C31_stays_in_area_partial (hE : ∀ k, E.fault k = none) (hA : AreaOk E c) (f : Nat → Byte)
    (hf : FreshArea c f ∨ CorruptTable c f) (ops : List Op) (hr : ∀ op ∈ ops, InRange op) (a : Nat)
    (ha : a < c.flashBase ∨ c.flashBase + c.flashSize ≤ a) (hp : c.autoAddPage = true ∨ 256 ≤ a) :
    (run E c (ctor c ⟨f, 0⟩) ops).1.hw.flash a = f a :=
  (run_tinv hE hA ops _ (ctor_tinv hA (hw := ⟨f, 0⟩) (f0 := f) (start_flashTbl hA hf)
    fun _ _ _ => rfl) hr).out a ha hp

/-! ## Examples -/

/-- 16 KiB of working flash. -/
def dEnv : Env := ⟨0x4000, fun _ => none, fun _ _ => 0#8⟩
/-- Four pages: the table and three more. -/
def dCfg : Cfg := ⟨0x1000, 0x400, true⟩
def dCfgFixed : Cfg := ⟨0x1000, 0x400, false⟩
/-- A program in page 0, the rest erased. -/
def dFlash : Nat → Byte := fun a => if a < 256 then 0x12#8 else 0xff#8

theorem dArea : AreaOk dEnv dCfg := ⟨by decide, by decide, by decide, by decide⟩
theorem dAreaFixed : AreaOk dEnv dCfgFixed := ⟨by decide, by decide, by decide, by decide⟩
theorem dFresh : FreshArea dCfg dFlash := fun i _ => if_neg (show ¬ 0x1000 + i < 256 by omega)
theorem dFreshFixed : FreshArea dCfgFixed dFlash := fun i _ => if_neg (show ¬ 0x1000 + i < 256 by omega)

/-- Interleaved writes to two pages, a third page by `addRange`, save, restart. -/
def dOps : List Op :=
  [.write 0x4005 7#8, .write 0x8105 8#8, .write 0x4006 9#8, .read 0x8105 false, .read 0x4005 true,
    .flush, .addRange 0x8000 0x200, .restart, .read 0x4006 false, .read 0x8005 false,
    .write 0x5000 1#8]

theorem dOps_ok : Disciplined true (emptyIdeal dCfg) false false dOps := by
  simp only [dOps, Disciplined]
  decide +kernel

example := C30_read_your_writes_partial (fun _ => rfl) dArea dFlash dFresh dOps dOps_ok
example : (Ideal.run true (emptyIdeal dCfg) dOps).2 = [(0, 0#8), (0, 0#8), (0, 0#8), (0, 8#8),
    (0, 7#8), (0, 0#8), (0, 0#8), (0, 0#8), (0, 9#8), (0, 0#8), (-4, 0#8)] := by decide +kernel

def dOpsFixed : List Op :=
  [.addRange 0x4000 0x200, .write 0x4005 7#8, .write 0x4105 8#8, .flush, .restart, .read 0x4005 false]

theorem dOpsFixed_ok : Disciplined false (emptyIdeal dCfgFixed) false false dOpsFixed := by
  simp only [dOpsFixed, Disciplined]
  decide +kernel

example := C30_read_your_writes_partial (fun _ => rfl) dAreaFixed dFlash dFreshFixed dOpsFixed dOpsFixed_ok
example := C30_reads_last_write_partial (fun _ => rfl) dAreaFixed dFlash dFreshFixed dOpsFixed dOpsFixed_ok
  0x4105 false

theorem dOps_failure_ok : Disciplined true (emptyIdeal dCfg) false false
    ([.write 0x4005 7#8, .flush, .write 0x4006 8#8, .write 0x4105 9#8] ++ [.flush, .restart]) := by
  simp only [Disciplined, List.cons_append, List.nil_append]
  decide +kernel

example := C30_power_failure_partial (fun _ => rfl) dArea dFlash dFresh _ dOps_failure_ok

theorem dOps_inRange : ∀ op ∈ dOps, InRange op := by
  simp [dOps, InRange]

example := C31_distinct_pages_partial (fun _ => rfl) dArea dFlash (Or.inl dFresh) dOps
  dOps_inRange
example := C31_stays_in_area_partial (fun _ => rfl) dArea dFlash (Or.inl dFresh) dOps
  dOps_inRange 0x10 (by decide) (by decide)

/-- A table page with zeros. -/
def dBadFlash : Nat → Byte := fun a => if 0x1000 ≤ a ∧ a < 0x1010 then 0#8 else 0xff#8

theorem dBad : CorruptTable dCfg dBadFlash := ⟨3, 5, by decide, by decide, by decide, by decide⟩

example := C30_corrupt_table (fun _ => rfl) dArea dBadFlash dBad dOps dOps_ok

/-! ## Findings -/

/-- Without `autoAddPage`, a write to an address that is not mapped reports success; the next
`doFlash` erases and programs flash page 0, where the vectors and the beginning of the program are. -/
theorem C30_unmapped_write_destroys_page_0 :
    let r := run dEnv dCfgFixed (ctor dCfgFixed ⟨dFlash, 0⟩) [.write 0x4000 5#8, .flush]
    r.2 = [(0, 0#8), (0, 0#8)] ∧ r.1.halted = false ∧ dFlash 7 = 0x12#8 ∧
      r.1.hw.flash 7 = 0#8 ∧ r.1.hw.flash 0 = 5#8 := by decide +kernel

/-- `addRange` drops data that has not been flashed: the write of 5 succeeded, the read yields the
old content 0. -/
theorem C30_addRange_drops_pending :
    (run dEnv dCfgFixed (ctor dCfgFixed ⟨dFlash, 0⟩) [.addRange 0x4000 0x100, .write 0x4000 5#8,
      .addRange 0x4100 0x100, .read 0x4000 false]).2 =
    [(0, 0#8), (0, 0#8), (0, 0#8), (0, 0#8)] := by decide +kernel

/-- `addRange` over the whole address space reports success and does nothing: the number of pages is
kept in a byte. -/
theorem C30_full_range_is_ignored :
    (run dEnv dCfgFixed (ctor dCfgFixed ⟨dFlash, 0⟩) [.addRange 0 0x10000, .read 0 false]).2 =
    [(0, 0#8), (-2, 0#8)] := by decide +kernel

/-- A range that ends behind the address space is not rejected; the table is accessed behind its
end. -/
theorem C30_range_past_end :
    (run dEnv dCfgFixed (ctor dCfgFixed ⟨dFlash, 0⟩) [.addRange 0xff00 0x200]).1.undef = true := by
  decide +kernel

/-- If `addRange` runs out of memory halfway, the pages it did map can be used, but the table is not
marked as modified: after `doFlash` and a restart they are gone. -/
theorem C30_out_of_memory_range_lost :
    (run dEnv dCfgFixed (ctor dCfgFixed ⟨dFlash, 0⟩) [.addRange 0x4000 0x400, .write 0x4000 5#8,
      .read 0x4000 false, .flush, .restart, .read 0x4000 false]).2 =
    [(-4, 0#8), (0, 0#8), (0, 5#8), (0, 0#8), (0, 0#8), (-2, 0#8)] := by decide +kernel

/-- Power failure during `doFlash`, between erasing and programming the table page: all saved data
is lost, not only the data being saved. -/
theorem C30_failure_in_flush_loses_all :
    ∃ E : Env, AreaOk E dCfg ∧
      (run E dCfg (ctor dCfg ⟨dFlash, 0⟩) [.write 0x4000 5#8, .flush, .read 0x4000 true,
        .write 0x4100 6#8, .flush, .restart, .read 0x4000 false]).2 =
      [(0, 0#8), (0, 0#8), (0, 5#8), (0, 0#8), (0, 0#8), (0, 0#8), (-2, 0#8)] := by
  refine ⟨⟨0x4000, fun i => if i = 13 then some 0 else none, fun _ _ => 0xff#8⟩,
    ⟨by decide, by decide, by decide, by decide⟩, ?_⟩
  decide +kernel

/-- Power failure while the table page is programmed: the bits of two entries are only partly
programmed (0xef instead of 0xee and 0xed).  The constructor does not notice; both virtual pages are
now mapped to the same flash page, the one that holds the table. -/
theorem C31_interrupted_table_write :
    ∃ E : Env, AreaOk E dCfg ∧
      let s := (run E dCfg (ctor dCfg ⟨dFlash, 0⟩) [.write 0x4000 5#8, .write 0x4100 6#8, .flush,
        .restart]).1
      pageOf s 0x40 = 0x10 ∧ pageOf s 0x41 = 0x10 ∧ dCfg.basePage = 0x10 := by
  refine ⟨⟨0x4000, fun i => if i = 13 then some 0 else none,
    fun _ a => if a = 0x1040 ∨ a = 0x1041 then 0xef#8 else 0xff#8⟩,
    ⟨by decide, by decide, by decide, by decide⟩, ?_⟩
  decide +kernel

/-- An area of a single page: the first page mapped lies outside the area. -/
theorem C31_one_page_area :
    pageOf (run dEnv ⟨0x1000, 0x100, true⟩ (ctor ⟨0x1000, 0x100, true⟩ ⟨dFlash, 0⟩)
      [.write 0x4000 5#8]).1 0x40 = 0x11 := by decide +kernel

end Verif.MemMap
