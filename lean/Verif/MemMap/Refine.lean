import Verif.MemMap.Lemmas

/-!
# The virtual memory refines the ideal memory

Invariant and simulation for `C30` and `C31`.
-/

namespace Verif.MemMap

open Verif.Iap

/-- The byte `i` of the flash page `p` as the program sees it: the page in the write buffer hides
the one in the flash. -/
def phys (s : St) (p i : Nat) : Byte :=
  if p = s.writePage then s.writeBuf i else s.hw.flash (p * 256 + i)

structure Inv (c : Cfg) (s : St) (n : Nat) : Prop where
  halted : s.halted = false
  undef : s.undef = false
  tbl : TblOk c.basePage s.allocTable n
  cnt : n + 1 ≤ c.sizePages
  last : s.lastAllocated = 0 ∨ (s.lastAllocated = c.basePage + n ∧ 1 ≤ n)
  wp : s.writePage = 0 ∨ (c.basePage < s.writePage ∧ s.writePage ≤ c.basePage + n)
  dirty : s.flashMemModified = true → s.writePage ≠ 0
  clean : s.flashMemModified = false → s.writePage ≠ 0 →
    ∀ i, i < 256 → s.hw.flash (s.writePage * 256 + i) = s.writeBuf i

structure Agree (c : Cfg) (s : St) (t : Ideal) (n : Nat) : Prop where
  mapped : ∀ v, v < 256 → t.mapped v = decide (entry (s.allocTable v) ≠ 0)
  val : ∀ v i, v < 256 → i < 256 → entry (s.allocTable v) ≠ 0 →
    t.val (v * 256 + i) = phys s (entry (s.allocTable v)) i
  free : t.free + n + 1 = c.sizePages

/-- The table in the flash is the current one, unless it is marked as modified. -/
def Synced (c : Cfg) (s : St) : Prop :=
  s.allocTableModified = false → ∀ i, i < 256 → s.hw.flash (c.basePage * 256 + i) = s.allocTable i

/-- The flash holds the content `t`. -/
structure Boot (c : Cfg) (hw : Hw) (t : Ideal) : Prop where
  ex : ∃ n, n + 1 ≤ c.sizePages ∧ TblOk c.basePage (fun i => hw.flash (c.basePage * 256 + i)) n ∧
    t.free + n + 1 = c.sizePages
  mapped : ∀ v, v < 256 → t.mapped v = decide (entry (hw.flash (c.basePage * 256 + v)) ≠ 0)
  val : ∀ v i, v < 256 → i < 256 → entry (hw.flash (c.basePage * 256 + v)) ≠ 0 →
    t.val (v * 256 + i) = hw.flash (entry (hw.flash (c.basePage * 256 + v)) * 256 + i)

/-- The simulation relation. -/
structure Rel (c : Cfg) (pending torn : Bool) (s : St) (t : Ideal) (n : Nat) : Prop where
  inv : Inv c s n
  agree : Agree c s t n
  synced : torn = false → Synced c s
  saved : pending = false → s.flashMemModified = false ∧ s.allocTableModified = false

variable {E : Env} {c : Cfg} {s : St} {t : Ideal} {n : Nat}

theorem Inv.writable (h : Inv c s n) (hA : AreaOk E c) : s.flashMemModified = true →
    s.writePage ≠ c.basePage ∧ s.writePage * 256 + 256 ≤ E.top := by
  intro hm
  obtain ⟨f1, f2, f3, f4, f5⟩ := hA.facts
  have h1 := h.dirty hm
  have h2 := h.wp
  have h3 := h.cnt
  omega

/-- With nothing in the write buffer the flash is what the program sees. -/
theorem Inv.phys_clean (h : Inv c s n) (hm : s.flashMemModified = false) {p i : Nat} (hp : p ≠ 0)
    (hi : i < 256) : phys s p i = s.hw.flash (p * 256 + i) := by
  unfold phys
  split
  · rename_i hw
    rw [← h.clean hm (by omega) i hi, hw]
  · rfl

/-! ## doFlash -/

theorem flush_rel (hE : ∀ k, E.fault k = none) (hA : AreaOk E c) {pending torn : Bool}
    (h : Rel c pending torn s t n) :
    Rel c false torn (doFlash E c s) t n ∧ (doFlash E c s).writePage = s.writePage ∧
      (doFlash E c s).allocTable = s.allocTable := by
  obtain ⟨hw, e, h1, h2⟩ := doFlash_ok hE hA h.inv.halted (h.inv.writable hA)
  rw [e]
  have hp : ∀ p i, p ≠ c.basePage → i < 256 → phys { s with
      hw := hw, flashMemModified := false, allocTableModified := false } p i = phys s p i := by
    intro p i hp hi
    unfold phys
    dsimp only
    split
    · rfl
    · rename_i hpw
      rw [h2 p hp i hi, if_neg (by simp [hpw])]
  refine ⟨⟨⟨h.inv.halted, h.inv.undef, h.inv.tbl, h.inv.cnt, h.inv.last, h.inv.wp, ?_, ?_⟩,
    ⟨h.agree.mapped, ?_, h.agree.free⟩, ?_, fun _ => ⟨rfl, rfl⟩⟩, rfl, rfl⟩
  · intro hc; cases hc
  · intro _ hw0 i hi
    have hwp := h.inv.wp
    dsimp only at hw0 ⊢
    rw [h2 _ (by omega) i hi]
    cases hm : s.flashMemModified
    · simpa using h.inv.clean hm hw0 i hi
    · simp
  · intro v i hv hi he
    dsimp only at he ⊢
    have := h.inv.tbl.range v hv
    rw [hp _ i (by omega) hi]
    exact h.agree.val v i hv hi he
  · intro ht _ i hi
    dsimp only
    rw [h1 i hi]
    cases hm : s.allocTableModified
    · simpa using h.synced ht hm i hi
    · simp

/-! ## Restart -/

/-- With nothing pending the flash holds everything. -/
theorem Rel.boot (h : Rel c false false s t n) : Boot c s.hw t := by
  obtain ⟨k1, k2⟩ := h.saved rfl
  have hs := h.synced rfl k2
  refine ⟨⟨n, h.inv.cnt, h.inv.tbl.congr hs, h.agree.free⟩, ?_, ?_⟩
  · intro v hv
    rw [hs v hv]
    exact h.agree.mapped v hv
  · intro v i hv hi he
    rw [hs v hv] at he ⊢
    rw [h.agree.val v i hv hi he]
    unfold phys
    split
    · rename_i hw
      have := h.inv.clean k1 (by omega) i hi
      rw [← this, hw]
    · rfl

theorem boot_rel (hA : AreaOk E c) {hw : Hw} (h : Boot c hw t) :
    ∃ n, Rel c false false (ctor c hw) t n := by
  obtain ⟨f1, f2, f3, f4, f5⟩ := hA.facts
  obtain ⟨n, h1, h2, h3⟩ := h.ex
  have hz := h2.zeros
  have e : ctor c hw = ⟨hw, fun i => hw.flash (c.basePage * 256 + i), fun _ => 0#8, 0, 0, false,
      false, false, false⟩ := by
    unfold ctor
    rw [f1] at hz
    simp only [hz, decide_false, Bool.false_eq_true, if_false, f1]
  refine ⟨n, ?_⟩
  rw [e]
  refine ⟨⟨rfl, rfl, h2, h1, Or.inl rfl, Or.inl rfl, fun hc => (by cases hc),
    fun _ hc => absurd rfl hc⟩, ⟨h.mapped, ?_, h3⟩, fun _ _ i _ => rfl, fun _ => ⟨rfl, rfl⟩⟩
  intro v i hv hi he
  rw [h.val v i hv hi he]
  unfold phys
  dsimp only at he ⊢
  rw [if_neg he]

/-! ## Allocation -/

theorem allocate_full (hA : AreaOk E c) (h : Inv c s n) (hn : n + 1 = c.sizePages) (v : Nat) :
    allocatePage c s v = ({ s with lastAllocated := c.basePage + n }, OUT_OF_MEMORY) := by
  obtain ⟨f1, f2, f3, f4, f5⟩ := hA.facts
  have hh := highest_eq h.tbl h.last
  rw [if_neg (by omega)] at hh
  unfold allocatePage
  dsimp only
  rw [hh, if_pos (by omega)]

theorem allocate_free (hA : AreaOk E c) (h : Inv c s n) (hn : n + 1 < c.sizePages) {v : Nat}
    (hv : v < 256) :
    allocatePage c s v = ({ s with
      lastAllocated := if n = 0 then 0 else c.basePage + n + 1
      writePage := c.basePage + n + 1
      writeBuf := fun _ => 0#8
      allocTable := fun i => if i = v then BitVec.ofNat 8 (c.basePage + n + 1) ^^^ 0xff#8
        else s.allocTable i }, SUCCESS) := by
  obtain ⟨f1, f2, f3, f4, f5⟩ := hA.facts
  have hh := highest_eq h.tbl h.last
  unfold allocatePage
  dsimp only
  by_cases h0 : n = 0
  · subst h0
    rw [if_pos rfl] at hh
    rw [hh, if_neg (show ¬ 0 = c.basePage + c.sizePages - 1 by omega), if_pos rfl, if_pos hv]
    simp
  · rw [if_neg h0] at hh
    rw [hh, if_neg (show ¬ c.basePage + n = c.basePage + c.sizePages - 1 by omega),
      if_neg (show ¬ c.basePage + n = 0 by omega), if_pos hv, if_neg h0]

/-- The next flash page is given to the virtual page `v`. -/
theorem allocate_rel (hA : AreaOk E c) (hi : Inv c s n) (ha : Agree c s t n)
    (hm : s.flashMemModified = false) (hn : n + 1 < c.sizePages) {v : Nat} (hv : v < 256)
    (h0 : entry (s.allocTable v) = 0) (b : Bool) :
    let s' : St := { (allocatePage c s v).1 with flashMemModified := true, allocTableModified := b }
    Inv c s' (n + 1) ∧ Agree c s' (t.map v) (n + 1) ∧ s'.writePage = entry (s'.allocTable v) := by
  obtain ⟨f1, f2, f3, f4, f5⟩ := hA.facts
  have hb : c.basePage + n + 1 < 256 := by omega
  have en := entry_new hb
  intro s'
  have es : s' = { s with
      lastAllocated := if n = 0 then 0 else c.basePage + n + 1
      writePage := c.basePage + n + 1
      writeBuf := fun _ => 0#8
      allocTable := fun i => if i = v then BitVec.ofNat 8 (c.basePage + n + 1) ^^^ 0xff#8
        else s.allocTable i
      flashMemModified := true
      allocTableModified := b } := by
    show ({ (allocatePage c s v).1 with flashMemModified := true, allocTableModified := b } : St) = _
    rw [allocate_free hA hi hn hv]
  rw [es]
  refine ⟨⟨hi.halted, hi.undef, hi.tbl.add hv h0 hb, by omega, ?_, Or.inr (by dsimp only; omega),
    fun _ => by dsimp only; omega, fun hc => (by cases hc)⟩, ⟨?_, ?_, ?_⟩, ?_⟩
  · dsimp only
    split
    · exact Or.inl rfl
    · exact Or.inr ⟨by omega, by omega⟩
  · intro w hw
    show (if w = v then true else t.mapped w) = _
    dsimp only
    split
    · rw [en]; simp
    · exact ha.mapped w hw
  · intro w i hw hi' he
    show (if (w * 256 + i) / 256 = v then 0#8 else t.val (w * 256 + i)) = _
    rw [show (w * 256 + i) / 256 = w by omega]
    show _ = if entry (if w = v then BitVec.ofNat 8 (c.basePage + n + 1) ^^^ 0xff#8
        else s.allocTable w) = c.basePage + n + 1 then 0#8
      else s.hw.flash (entry (if w = v then BitVec.ofNat 8 (c.basePage + n + 1) ^^^ 0xff#8
        else s.allocTable w) * 256 + i)
    by_cases hwv : w = v
    · simp only [if_pos hwv, en, if_true]
    · have he : entry (s.allocTable w) ≠ 0 := by simpa only [if_neg hwv] using he
      simp only [if_neg hwv]
      have hr := hi.tbl.range w hw
      rw [if_neg (by omega), ha.val w i hw hi' he]
      unfold phys
      split
      · rename_i hwp
        rw [← hi.clean hm (by omega) i hi', hwp]
      · rfl
  · have := ha.free
    show t.free - 1 + (n + 1) + 1 = _
    omega
  · dsimp only
    rw [if_pos rfl, en]

/-! ## Reading -/

theorem page_valid {a : Int} (h : Valid a) : 0 ≤ a / 256 ∧ a / 256 < 256 ∧
    (a / 256).toNat = a.toNat / 256 ∧ (a % 256).toNat = a.toNat % 256 ∧ a.toNat / 256 < 256 := by
  unfold Valid at h
  omega

theorem getPage_valid {a : Int} (h : Valid a) :
    getFlashPageNum s a = (entry (s.allocTable (a.toNat / 256)) : Nat) := by
  obtain ⟨h1, h2, h3, h4, h5⟩ := page_valid h
  unfold getFlashPageNum
  dsimp only
  rw [if_neg (by omega), h3]
  rfl

theorem getPage_invalid {a : Int} (h : ¬ Valid a) : getFlashPageNum s a = -1 := by
  unfold getFlashPageNum Valid at *
  dsimp only
  rw [if_pos (by omega)]
  rfl

theorem read_rel (hE : ∀ k, E.fault k = none) (hA : AreaOk E c) {pending torn : Bool}
    (h : Rel c pending torn s t n) (a : Int) (f : Bool) (auto : Bool) :
    Rel c pending torn (readMem E c s a f).1 t n ∧
      (readMem E c s a f).2 = (t.step auto (.read a f)).2 ∧
      ((readMem E c s a f).1 = s ∨ (readMem E c s a f).1 = doFlash E c s) := by
  by_cases hv : Valid a
  · obtain ⟨h1, h2, h3, h4, h5⟩ := page_valid hv
    have hideal : (t.step auto (.read a f)).2 =
        if t.mapped (a.toNat / 256) then (0, t.val a.toNat) else (-2, 0#8) := by
      show (if ¬ Valid a then (t, -1, 0#8)
        else if t.mapped (a.toNat / 256) then (t, 0, t.val a.toNat) else (t, -2, 0#8)).2 = _
      rw [if_neg (not_not_intro hv)]
      split <;> rfl
    rw [hideal]
    obtain ⟨hf, hf1, hf2⟩ := flush_rel hE hA h
    unfold readMem
    dsimp only
    rw [getPage_valid hv, if_neg (show ¬ ((entry (s.allocTable (a.toNat / 256)) : Nat) : Int) < 0 by
      omega)]
    obtain ⟨s1, es⟩ : ∃ s1, (if f then doFlash E c s else s) = s1 := ⟨_, rfl⟩
    rw [es]
    have hs1 : Rel c pending torn s1 t n := by
      rw [← es]; split
      · exact ⟨hf.inv, hf.agree, hf.synced, fun _ => hf.saved rfl⟩
      · exact h
    have hor : s1 = s ∨ s1 = doFlash E c s := by
      rw [← es]; split
      · exact Or.inr rfl
      · exact Or.inl rfl
    have ht : s1.allocTable = s.allocTable := by
      rcases hor with e | e
      · rw [e]
      · rw [e, hf2]
    have hmap := hs1.agree.mapped _ h5
    rw [hmap, ← ht, if_neg (show ¬ s1.halted = true by simp [hs1.inv.halted])]
    by_cases h0 : entry (s1.allocTable (a.toNat / 256)) = 0
    · rw [h0]
      exact ⟨hs1, rfl, hor⟩
    · have hval := hs1.agree.val (a.toNat / 256) (a.toNat % 256) h5 (by omega) h0
      rw [show a.toNat / 256 * 256 + a.toNat % 256 = a.toNat by omega] at hval
      rw [hval, h4, Int.toNat_natCast]
      obtain ⟨p, hp⟩ : ∃ p, entry (s1.allocTable (a.toNat / 256)) = p := ⟨_, rfl⟩
      rw [hp] at h0 ⊢
      rw [if_neg (show ¬ (p : Int) = 0 by omega), if_pos (show decide (p ≠ 0) = true by simp [h0])]
      unfold phys
      by_cases hw : p = s1.writePage
      · rw [if_pos hw]
        cases f
        · rw [if_pos (show (p : Int) = (s1.writePage : Int) ∧ (!false) = true by simp [hw])]
          exact ⟨hs1, rfl, hor⟩
        · rw [if_neg (show ¬ ((p : Int) = (s1.writePage : Int) ∧ (!true) = true) by simp)]
          refine ⟨hs1, ?_, hor⟩
          simp only [if_true] at es
          have hm : s1.flashMemModified = false := by rw [← es]; exact (hf.saved rfl).1
          have := hs1.inv.clean hm (by omega) (a.toNat % 256) (by omega)
          rw [← this, ← hw]
          rfl
      · rw [if_neg hw, if_neg (show ¬ ((p : Int) = (s1.writePage : Int) ∧ (!f) = true) by omega)]
        exact ⟨hs1, rfl, hor⟩
  · have hideal : (t.step auto (.read a f)).2 = (-1, 0#8) := by
      show (if ¬ Valid a then (t, -1, 0#8)
        else if t.mapped (a.toNat / 256) then (t, 0, t.val a.toNat) else (t, -2, 0#8)).2 = _
      rw [if_pos hv]
    rw [hideal]
    unfold readMem
    dsimp only
    rw [getPage_invalid hv, if_pos (show (-1 : Int) < 0 by decide)]
    exact ⟨h, rfl, Or.inl rfl⟩

/-! ## Writing -/

/-- The page `p` is in the write buffer. -/
def loadPage (E : Env) (c : Cfg) (s : St) (p : Nat) : St :=
  if s.writePage ≠ p then
    { doFlash E c s with
      writePage := p
      writeBuf := if p ≠ 0 then fun i => (doFlash E c s).hw.flash (p * 0x100 + i)
        else (doFlash E c s).writeBuf }
  else s

theorem load_rel (hE : ∀ k, E.fault k = none) (hA : AreaOk E c) {pending torn : Bool}
    (h : Rel c pending torn s t n) {p : Nat} (hp : p = 0 ∨ (c.basePage < p ∧ p ≤ c.basePage + n)) :
    Rel c pending torn (loadPage E c s p) t n ∧ (loadPage E c s p).writePage = p ∧
      (loadPage E c s p).allocTable = s.allocTable ∧
      ((loadPage E c s p).hw = s.hw ∨ (loadPage E c s p).hw = (doFlash E c s).hw) ∧
      (p = 0 → (loadPage E c s p).flashMemModified = false) := by
  unfold loadPage
  by_cases hw : s.writePage = p
  · rw [if_neg (by simpa using hw)]
    refine ⟨h, hw, rfl, Or.inl rfl, fun h0 => ?_⟩
    cases hm : s.flashMemModified
    · rfl
    · exact absurd (hw.trans h0) (h.inv.dirty hm)
  · rw [if_pos hw]
    obtain ⟨hf, hf1, hf2⟩ := flush_rel hE hA h
    obtain ⟨s1, es⟩ : ∃ s1, doFlash E c s = s1 := ⟨_, rfl⟩
    rw [es] at hf hf1 hf2 ⊢
    obtain ⟨k1, k2⟩ := hf.saved rfl
    refine ⟨⟨⟨hf.inv.halted, hf.inv.undef, hf.inv.tbl, hf.inv.cnt, hf.inv.last, hp, ?_, ?_⟩,
      ⟨hf.agree.mapped, ?_, hf.agree.free⟩, hf.synced, fun _ => ⟨k1, k2⟩⟩, rfl, hf2, Or.inr rfl,
      fun _ => k1⟩
    · intro hm
      dsimp only at hm
      rw [k1] at hm
      cases hm
    · intro _ h0 i hi
      dsimp only at h0 ⊢
      rw [if_pos h0]
    · intro v i hv hi he
      have he : entry (s1.allocTable v) ≠ 0 := he
      rw [hf.agree.val v i hv hi he, hf.inv.phys_clean k1 he hi]
      show _ = if entry (s1.allocTable v) = p then
        (if p ≠ 0 then fun i => s1.hw.flash (p * 0x100 + i) else s1.writeBuf) i
        else s1.hw.flash (entry (s1.allocTable v) * 256 + i)
      by_cases hp' : entry (s1.allocTable v) = p
      · rw [if_pos hp', if_pos (show p ≠ 0 by omega), hp']
      · rw [if_neg hp']

/-- Storing a byte in the page of the write buffer. -/
theorem store_rel {pending torn : Bool} (h : Rel c pending torn s t n) {v i : Nat} (hv : v < 256)
    (hi : i < 256) (hm : entry (s.allocTable v) ≠ 0) (hw : s.writePage = entry (s.allocTable v))
    (d : Byte) :
    Rel c true torn { s with
      writeBuf := fun k => if k = i then d else s.writeBuf k
      flashMemModified := true } (t.set (v * 256 + i) d) n := by
  refine ⟨⟨h.inv.halted, h.inv.undef, h.inv.tbl, h.inv.cnt, h.inv.last, h.inv.wp,
    fun _ => by dsimp only; omega, fun hc => (by cases hc)⟩,
    ⟨h.agree.mapped, ?_, h.agree.free⟩, h.synced, fun hc => (by cases hc)⟩
  intro w k hw' hk he
  show (if w * 256 + k = v * 256 + i then d else t.val (w * 256 + k)) = _
  dsimp only at he
  have hval := h.agree.val w k hw' hk he
  unfold phys at hval ⊢
  dsimp only
  by_cases hp : entry (s.allocTable w) = s.writePage
  · have : w = v := h.inv.tbl.inj w v hw' hv he (hp.trans hw)
    subst this
    rw [if_pos hp] at hval ⊢
    by_cases hki : k = i
    · rw [if_pos (by omega), if_pos hki]
    · rw [if_neg (by omega), if_neg hki, hval]
  · rw [if_neg hp] at hval ⊢
    have : w ≠ v := by rintro rfl; exact hp hw.symm
    rw [if_neg (by omega), hval]

theorem write_rel (hE : ∀ k, E.fault k = none) (hA : AreaOk E c) {pending torn : Bool}
    (h : Rel c pending torn s t n) (a : Int) (d : Byte)
    (hd : c.autoAddPage = true ∨ (Valid a → t.mapped (a.toNat / 256) = true)) :
    (∃ n', Rel c true torn (writeMem E c s a d).1 (t.step c.autoAddPage (.write a d)).1 n') ∧
      (writeMem E c s a d).2 = (t.step c.autoAddPage (.write a d)).2.1 ∧
      (t.step c.autoAddPage (.write a d)).2.2 = 0#8 ∧
      ((writeMem E c s a d).1.hw = s.hw ∨ (writeMem E c s a d).1.hw = (doFlash E c s).hw) := by
  have weak : ∀ {s : St} {t : Ideal} {n : Nat} {p : Bool}, Rel c p torn s t n →
      Rel c true torn s t n := fun h => ⟨h.inv, h.agree, h.synced, fun hc => (by cases hc)⟩
  by_cases hv : Valid a
  · obtain ⟨h1, h2, h3, h4, h5⟩ := page_valid hv
    obtain ⟨p, hp⟩ : ∃ p, entry (s.allocTable (a.toNat / 256)) = p := ⟨_, rfl⟩
    have hr := h.inv.tbl.range _ h5
    rw [hp] at hr
    obtain ⟨l1, l2, l3, l4, l5⟩ := load_rel hE hA h hr
    obtain ⟨s1, es⟩ : ∃ s1, loadPage E c s p = s1 := ⟨_, rfl⟩
    have hload : (if (s.writePage : Int) ≠ (p : Nat) then
        let r := doFlash E c s
        if r.halted then r
        else
          { r with
            writePage := ((p : Nat) : Int).toNat
            writeBuf := if ((p : Nat) : Int) ≠ 0 then
              fun i => r.hw.flash (((p : Nat) : Int).toNat * 0x100 + i) else r.writeBuf }
      else s) = s1 := by
      rw [← es]
      unfold loadPage
      by_cases hw : s.writePage = p
      · rw [if_neg (by omega), if_neg (by simpa using hw)]
      · rw [if_pos (by omega), if_pos hw]
        have := (flush_rel hE hA h).1.inv.halted
        dsimp only
        rw [if_neg (by simp [this])]
        simp only [Int.toNat_natCast, ne_eq, Int.natCast_eq_zero]
    rw [es] at l1 l2 l3 l4 l5
    have hmap := h.agree.mapped _ h5
    rw [hp] at hmap
    have hcode : writeMem E c s a d =
        let r : St × Int :=
          if ((p : Nat) : Int) = 0 ∧ c.autoAddPage then
            let r := allocatePage c s1 (a.toNat / 256)
            if r.2 ≠ SUCCESS then r else ({ r.1 with allocTableModified := true }, SUCCESS)
          else (s1, SUCCESS)
        if r.2 ≠ SUCCESS then r
        else
          ({ r.1 with
              writeBuf := fun i => if i = a.toNat % 256 then d else r.1.writeBuf i
              flashMemModified := true }, SUCCESS) := by
      unfold writeMem
      dsimp only
      rw [getPage_valid hv, hp, if_neg (by omega), hload, if_neg (by simp [l1.inv.halted]), h3, h4]
    have hideal : t.step c.autoAddPage (.write a d) =
        if t.mapped (a.toNat / 256) then (t.set a.toNat d, 0, 0#8)
        else if c.autoAddPage then
          if t.free = 0 then (t, -4, 0#8) else ((t.map (a.toNat / 256)).set a.toNat d, 0, 0#8)
        else (t, -2, 0#8) := if_neg (not_not_intro hv)
    rw [hideal, hmap]
    by_cases hp0 : p = 0
    · have hauto : c.autoAddPage = true := by
        rcases hd with hd | hd
        · exact hd
        · have := hd hv
          rw [hmap] at this
          simp [hp0] at this
      have hfree := l1.agree.free
      have hent : entry (s1.allocTable (a.toNat / 256)) = 0 := by rw [l3, hp, hp0]
      rw [if_neg (show ¬ decide (p ≠ 0) = true by simp [hp0]), if_pos hauto]
      by_cases hf0 : t.free = 0
      · have hc2 : writeMem E c s a d = ({ s1 with lastAllocated := c.basePage + n }, -4) := by
          rw [hcode, allocate_full hA l1.inv (by omega)]
          simp [hp0, hauto, OUT_OF_MEMORY, SUCCESS]
        rw [hc2, if_pos hf0]
        refine ⟨⟨n, ?_⟩, rfl, rfl, l4⟩
        obtain ⟨f1, f2, f3, f4, f5⟩ := hA.facts
        exact ⟨⟨l1.inv.halted, l1.inv.undef, l1.inv.tbl, l1.inv.cnt, Or.inr ⟨rfl, by omega⟩,
          l1.inv.wp, l1.inv.dirty, l1.inv.clean⟩,
          ⟨l1.agree.mapped, l1.agree.val, l1.agree.free⟩, l1.synced, fun hc => (by cases hc)⟩
      · rw [if_neg hf0]
        have hn : n + 1 < c.sizePages := by omega
        obtain ⟨g1, g2, g3⟩ := allocate_rel hA l1.inv l1.agree (l5 hp0) hn h5 hent true
        have hal : (allocatePage c s1 (a.toNat / 256)).2 = SUCCESS := by
          rw [allocate_free hA l1.inv hn h5]
        have halh : (allocatePage c s1 (a.toNat / 256)).1.hw = s1.hw := by
          rw [allocate_free hA l1.inv hn h5]
        obtain ⟨r, er⟩ : ∃ r, allocatePage c s1 (a.toNat / 256) = r := ⟨_, rfl⟩
        rw [er] at g1 g2 g3 hal halh hcode
        have hc2 : writeMem E c s a d = ({ r.1 with
            writeBuf := fun i => if i = a.toNat % 256 then d else r.1.writeBuf i
            flashMemModified := true, allocTableModified := true }, 0) := by
          rw [hcode]
          simp [hp0, hauto, hal, SUCCESS]
        rw [hc2]
        have hrel : Rel c true torn { r.1 with flashMemModified := true, allocTableModified := true }
            (t.map (a.toNat / 256)) (n + 1) :=
          ⟨g1, g2, fun _ hc => (by cases hc), fun hc => (by cases hc)⟩
        have hne : entry (r.1.allocTable (a.toNat / 256)) ≠ 0 := by
          have := g2.mapped _ h5
          unfold Ideal.map at this
          simpa using this
        have := store_rel hrel h5 (Nat.mod_lt a.toNat (by decide : 0 < 256)) hne g3 d
        rw [show a.toNat / 256 * 256 + a.toNat % 256 = a.toNat by omega] at this
        exact ⟨⟨n + 1, this⟩, rfl, rfl, by dsimp only; rw [halh]; exact l4⟩
    · have hc2 : writeMem E c s a d = ({ s1 with
          writeBuf := fun i => if i = a.toNat % 256 then d else s1.writeBuf i
          flashMemModified := true }, 0) := by
        rw [hcode]
        simp [hp0, SUCCESS]
      rw [hc2, if_pos (show decide (p ≠ 0) = true by simp [hp0])]
      have := store_rel l1 h5 (Nat.mod_lt a.toNat (by decide : 0 < 256))
        (by rw [l3, hp]; exact hp0) (by rw [l3, hp, l2]) d
      rw [show a.toNat / 256 * 256 + a.toNat % 256 = a.toNat by omega] at this
      exact ⟨⟨n, this⟩, rfl, rfl, l4⟩
  · have hideal : t.step c.autoAddPage (.write a d) = (t, -1, 0#8) := if_pos hv
    rw [hideal]
    unfold writeMem
    dsimp only
    rw [getPage_invalid hv, if_pos (show (-1 : Int) < 0 by decide)]
    exact ⟨⟨n, weak h⟩, rfl, rfl, Or.inl rfl⟩

/-! ## Ranges -/

theorem addPages_flag (k : Nat) : ∀ (v : Nat) (s : St), (addPages E c k v s true).2.2 = true := by
  induction k with
  | zero => intro v s; rfl
  | succ k ih =>
    intro v s
    unfold addPages
    dsimp only
    split
    · rfl
    · split
      · split
        · rfl
        · split
          · rfl
          · exact ih _ _
      · exact ih _ _

theorem addPages_rel (hE : ∀ k, E.fault k = none) (hA : AreaOk E c) (k : Nat) :
    ∀ (v : Nat) (s : St) (t : Ideal) (n : Nat) (m : Bool), v + k ≤ 256 →
      Rel c false true s t n →
      (∃ n', Rel c false true (addPages E c k v s m).1 (t.mapRange k v).1 n') ∧
      (addPages E c k v s m).2.1 = (t.mapRange k v).2 ∧
      ((addPages E c k v s m).2.2 = false ∨ t.free = 0 →
        (addPages E c k v s m).1.allocTable = s.allocTable ∧ (addPages E c k v s m).1.hw = s.hw) := by
  induction k with
  | zero =>
    intro v s t n m _ h
    exact ⟨⟨n, h⟩, rfl, fun _ => ⟨rfl, rfl⟩⟩
  | succ k ih =>
    intro v s t n m hv h
    have hvl : v < 256 := by omega
    have hmap := h.agree.mapped v hvl
    have hfree := h.agree.free
    have hcode : addPages E c (k + 1) v s m =
        if pageOf s v = 0 then
          let r := allocatePage c s v
          if r.2 ≠ SUCCESS then (r.1, r.2, m)
          else
            let s2 := doFlash E c { r.1 with flashMemModified := true }
            if s2.halted then (s2, SUCCESS, true) else addPages E c k (v + 1) s2 true
        else addPages E c k (v + 1) s m := if_neg (show ¬ 0x100 ≤ v by omega)
    have hideal : t.mapRange (k + 1) v =
        if t.mapped v then t.mapRange k (v + 1)
        else if t.free = 0 then (t, -4)
        else (t.map v).mapRange k (v + 1) := rfl
    rw [hideal, hmap]
    by_cases h0 : entry (s.allocTable v) = 0
    · rw [if_pos (show pageOf s v = 0 from h0)] at hcode
      rw [if_neg (show ¬ decide (entry (s.allocTable v) ≠ 0) = true by simp [h0])]
      by_cases hf0 : t.free = 0
      · rw [if_pos hf0]
        have hc2 : addPages E c (k + 1) v s m = ({ s with lastAllocated := c.basePage + n }, -4, m) := by
          rw [hcode, allocate_full hA h.inv (by omega)]
          rfl
        rw [hc2]
        refine ⟨⟨n, ?_⟩, rfl, fun _ => ⟨rfl, rfl⟩⟩
        obtain ⟨f1, f2, f3, f4, f5⟩ := hA.facts
        exact ⟨⟨h.inv.halted, h.inv.undef, h.inv.tbl, h.inv.cnt, Or.inr ⟨rfl, by omega⟩,
          h.inv.wp, h.inv.dirty, h.inv.clean⟩,
          ⟨h.agree.mapped, h.agree.val, h.agree.free⟩, fun hc => (by cases hc), h.saved⟩
      · rw [if_neg hf0]
        have hn : n + 1 < c.sizePages := by omega
        have hal : (allocatePage c s v).2 = SUCCESS := by rw [allocate_free hA h.inv hn hvl]
        have hb : (allocatePage c s v).1.allocTableModified = false := by
          rw [allocate_free hA h.inv hn hvl]; exact (h.saved rfl).2
        obtain ⟨g1, g2, _⟩ := allocate_rel hA h.inv h.agree (h.saved rfl).1 hn hvl h0 false
        obtain ⟨r, er⟩ : ∃ r, allocatePage c s v = r := ⟨_, rfl⟩
        rw [er] at hal hb g1 g2 hcode
        have e1 : ({ r.1 with flashMemModified := true, allocTableModified := false } : St) =
            { r.1 with flashMemModified := true } := by rw [← hb]
        dsimp only at g1 g2 hcode
        rw [e1] at g1 g2
        have hrel : Rel c true true { r.1 with flashMemModified := true } (t.map v) (n + 1) :=
          ⟨g1, g2, fun hc => (by cases hc), fun hc => (by cases hc)⟩
        obtain ⟨hf, _, _⟩ := flush_rel hE hA hrel
        obtain ⟨s2, e2⟩ : ∃ s2, doFlash E c { r.1 with flashMemModified := true } = s2 := ⟨_, rfl⟩
        rw [e2] at hf hcode
        have hc2 : addPages E c (k + 1) v s m = addPages E c k (v + 1) s2 true := by
          rw [hcode]
          simp [hal, hf.inv.halted]
        rw [hc2]
        obtain ⟨i1, i2, i3⟩ := ih (v + 1) _ _ _ true (by omega) hf
        refine ⟨i1, i2, fun hc => ?_⟩
        rcases hc with hc | hc
        · rw [addPages_flag] at hc; cases hc
        · exact absurd hc hf0
    · rw [if_neg (show ¬ pageOf s v = 0 from h0)] at hcode
      rw [if_pos (show decide (entry (s.allocTable v) ≠ 0) = true by simp [h0]), hcode]
      exact ih (v + 1) s t n m (by omega) h

theorem mapRange_res (k : Nat) : ∀ (v : Nat) (t : Ideal),
    (t.mapRange k v).2 = 0 ∨ (t.mapRange k v).2 = -4 := by
  induction k with
  | zero => intro v t; exact Or.inl rfl
  | succ k ih =>
    intro v t
    unfold Ideal.mapRange
    split
    · exact ih ..
    · split
      · exact Or.inr rfl
      · exact ih ..

theorem addRange_rel (hE : ∀ k, E.fault k = none) (hA : AreaOk E c) {torn auto : Bool}
    (h : Rel c false torn s t n) (a len : Int) (h1 : 0 ≤ len) (h2 : a / 256 + len / 256 ≤ 256)
    (h3 : len / 256 < 256) :
    (∃ n', Rel c false (torn || ((t.step auto (.addRange a len)).2.1 == -4 && t.free != 0))
        (addRange E c s a len).1 (t.step auto (.addRange a len)).1 n') ∧
      (addRange E c s a len).2 = (t.step auto (.addRange a len)).2.1 ∧
      (t.step auto (.addRange a len)).2.2 = 0#8 := by
  have keep : ∀ {b : Bool}, Rel c false (torn || b) s t n := by
    intro b
    refine ⟨h.inv, h.agree, fun hc => h.synced ?_, h.saved⟩
    cases torn <;> simp_all
  have hideal : t.step auto (.addRange a len) =
      if ¬ Valid a ∨ a % 256 ≠ 0 then (t, -1, 0#8)
      else if len % 256 ≠ 0 then (t, -8, 0#8)
      else let r := t.mapRange (len / 256).toNat (a.toNat / 256); (r.1, r.2, 0#8) := rfl
  have hcode : addRange E c s a len =
      if a % 256 ≠ 0 ∨ a / 256 < 0 ∨ 0x100 ≤ a / 256 then (s, INVALID_ADDRESS)
      else if len % 256 ≠ 0 then (s, INVALID_LENGTH)
      else
        let r := addPages E c (len / 256 % 256).toNat (a / 256).toNat s false
        if r.1.halted ∨ r.1.undef then (r.1, SUCCESS)
        else if r.2.1 ≠ SUCCESS then (r.1, r.2.1)
        else
          let s1 : St := if r.2.2 then { r.1 with allocTableModified := true } else r.1
          (doFlash E c s1, SUCCESS) := rfl
  by_cases hv : Valid a ∧ a % 256 = 0
  · obtain ⟨hv, ha⟩ := hv
    obtain ⟨q1, q2, q3, q4, q5⟩ := page_valid hv
    rw [if_neg (show ¬ (¬ Valid a ∨ a % 256 ≠ 0) by simp [hv, ha])] at hideal
    rw [if_neg (show ¬ (a % 256 ≠ 0 ∨ a / 256 < 0 ∨ 0x100 ≤ a / 256) by omega)] at hcode
    by_cases hl : len % 256 = 0
    · rw [if_neg (not_not_intro hl)] at hideal hcode
      have hk : (len / 256 % 256).toNat = (len / 256).toNat := by omega
      rw [hk, q3] at hcode
      have h' : Rel c false true s t n := ⟨h.inv, h.agree, fun hc => (by cases hc), h.saved⟩
      obtain ⟨⟨n', i1⟩, i2, i3⟩ := addPages_rel hE hA (len / 256).toNat (a.toNat / 256) s t n false
        (by omega) h'
      have hres := mapRange_res (len / 256).toNat (a.toNat / 256) t
      obtain ⟨r, er⟩ : ∃ r, addPages E c (len / 256).toNat (a.toNat / 256) s false = r := ⟨_, rfl⟩
      obtain ⟨u, eu⟩ : ∃ u, t.mapRange (len / 256).toNat (a.toNat / 256) = u := ⟨_, rfl⟩
      rw [er, eu] at i1 i2
      rw [er] at i3 hcode
      rw [eu] at hideal hres
      dsimp only at hideal hcode
      rw [if_neg (show ¬ (r.1.halted = true ∨ r.1.undef = true) by
        simp [i1.inv.halted, i1.inv.undef])] at hcode
      rw [hideal]
      dsimp only
      rcases hres with hres | hres
      · rw [if_neg (show ¬ r.2.1 ≠ SUCCESS by rw [i2, hres]; decide)] at hcode
        rw [hcode, hres]
        have hrel : Rel c true torn (if r.2.2 then { r.1 with allocTableModified := true } else r.1)
            u.1 n' := by
          cases hm : r.2.2
          · obtain ⟨j1, j2⟩ := i3 (Or.inl hm)
            simp only [Bool.false_eq_true, if_false]
            refine ⟨i1.inv, i1.agree, fun ht hm' i hi => ?_, fun hc => (by cases hc)⟩
            rw [j1, j2]
            exact h.synced ht (h.saved rfl).2 i hi
          · simp only [if_true]
            exact ⟨⟨i1.inv.halted, i1.inv.undef, i1.inv.tbl, i1.inv.cnt, i1.inv.last, i1.inv.wp,
              i1.inv.dirty, i1.inv.clean⟩, ⟨i1.agree.mapped, i1.agree.val, i1.agree.free⟩,
              fun _ hc => (by cases hc), fun hc => (by cases hc)⟩
        have hf := (flush_rel hE hA hrel).1
        refine ⟨⟨n', ?_⟩, rfl, rfl⟩
        simpa using hf
      · rw [if_pos (show r.2.1 ≠ SUCCESS by rw [i2, hres]; decide)] at hcode
        rw [hcode]
        refine ⟨⟨n', i1.inv, i1.agree, ?_, i1.saved⟩, i2, rfl⟩
        intro hc hm i hi
        rw [hres] at hc
        have hc2 : torn = false ∧ t.free = 0 := by
          cases torn <;> simp_all
        obtain ⟨j1, j2⟩ := i3 (Or.inr hc2.2)
        dsimp only
        rw [j1, j2]
        exact h.synced hc2.1 (h.saved rfl).2 i hi
    · rw [if_pos hl] at hideal hcode
      rw [hideal, hcode]
      exact ⟨⟨n, keep⟩, rfl, rfl⟩
  · have h1 : a % 256 ≠ 0 ∨ a / 256 < 0 ∨ 256 ≤ a / 256 := by
      unfold Valid at hv; omega
    have h2 : ¬ Valid a ∨ a % 256 ≠ 0 := by
      by_cases hx : Valid a
      · exact Or.inr fun hy => hv ⟨hx, hy⟩
      · exact Or.inl hx
    rw [if_pos h1] at hcode
    rw [if_pos h2] at hideal
    rw [hideal, hcode]
    exact ⟨⟨n, keep⟩, rfl, rfl⟩

end Verif.MemMap
