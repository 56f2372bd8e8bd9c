import Verif.Dev.MemLemmas

/-!
# The loop of the memory services
-/

namespace Verif.Dev

open Verif.MemMap (Ideal)

variable {W : World}

theorem mapOp_pos (rd : Bool) (s : MemMap.St) (p : Pos) (n : Nat) :
    (mapOp W rd s p n).1.addr = p.addr ∧ (mapOp W rd s p n).1.off = p.off := by
  unfold mapOp
  cases rd
  · exact ⟨rfl, rfl⟩
  · exact ⟨rfl, rfl⟩

theorem Rep.some {d : Dev} {t : Ideal} {a : Nat} (h : Rep W d t) (hm : Mp t a) :
    ∃ s, d.mapper = some s := by
  cases hs : d.mapper with
  | some s => exact ⟨s, rfl⟩
  | none =>
    unfold Rep at h
    rw [hs] at h
    have := h (a / 256)
    rw [hm.2] at this
    cases this

theorem sep_congr {t t' : Ideal} (h : t'.mapped = t.mapped) (hs : Sep W t) : Sep W t' := by
  intro a ha hm
  refine hs a ha ?_
  unfold Mp at hm ⊢
  rwa [h] at hm

theorem mp_congr {t t' : Ideal} (h : t'.mapped = t.mapped) (a : Nat) : Mp t' a ↔ Mp t a := by
  unfold Mp; rw [h]

theorem mapBytes_chunk (rd : Bool) (n : Nat) : ∀ {t : Ideal} {p : Pos}, Rep W p.d t → Sep W t →
    ∃ t' m, m ≤ n ∧ Chunk W rd t p t' (mapBytes W rd n p) m ∧ (m = n ∨ ¬ Mp t (p.addr + m)) ∧
      (mapBytes W rd n p).found = (p.found || decide (0 < m)) ∧ ∀ i, i < m → Mp t (p.addr + i) := by
  induction n with
  | zero =>
    intro t p hr _
    exact ⟨t, 0, Nat.le_refl 0, Chunk.refl rd hr, Or.inl rfl, by simp [mapBytes],
      fun i hi => absurd hi (Nat.not_lt_zero i)⟩
  | succ n ih =>
    intro t p hr hsep
    by_cases hm : Mp t p.addr
    · obtain ⟨s, hs⟩ := hr.some hm
      have e : mapBytes W rd (n + 1) p = if MemMap.isMapped W.mc s (p.addr : Int) then
          let r := mapOp W rd s p 1
          if r.2 then mapBytes W rd n { r.1 with addr := r.1.addr + 1, off := r.1.off + 1, found := true }
          else r.1
        else p := by
        conv => lhs; unfold mapBytes
        rw [hs]
      obtain ⟨c1, t1, c2⟩ := mapOp_chunk rd hr hs (n := 1) (fun i hi => by
        have : i = 0 := by omega
        subst this
        exact hm) hsep
      obtain ⟨ha, ho⟩ := mapOp_pos (W := W) rd s p 1
      rw [e, if_pos ((rep_mapped hr hs _).2 hm)]
      dsimp only
      rw [if_pos c1, ha, ho]
      obtain ⟨p1, hp1⟩ : ∃ p1, (mapOp W rd s p 1).1 = p1 := ⟨_, rfl⟩
      rw [hp1] at c2 ⊢
      have c2' := c2.flag p.found true
      have hc : Chunk W rd t p t1 { p1 with addr := p.addr + 1, off := p.off + 1, found := true } 1 := c2'
      obtain ⟨t2, m, i1, i2, i3, i4, i5⟩ := ih hc.rep (sep_congr hc.mapped hsep)
      refine ⟨t2, 1 + m, by omega, hc.trans i2, ?_, ?_, ?_⟩
      · rcases i3 with i3 | i3
        · exact Or.inl (by omega)
        · right
          rw [mp_congr hc.mapped] at i3
          have e2 : p.addr + (1 + m) = p.addr + 1 + m := by omega
          rw [e2]
          exact i3
      · rw [i4]
        have : decide (0 < 1 + m) = true := decide_eq_true (by omega)
        rw [this]
        simp
      · intro i hi
        cases i with
        | zero => exact hm
        | succ i =>
          have := i5 i (by omega)
          rw [mp_congr hc.mapped] at this
          have e2 : p.addr + (i + 1) = p.addr + 1 + i := by omega
          rw [e2]
          exact this
    · have e : mapBytes W rd (n + 1) p = p := by
        conv => lhs; unfold mapBytes
        cases hs : p.d.mapper with
        | none => rfl
        | some s =>
          dsimp only
          rw [if_neg (fun hc => hm ((rep_mapped hr hs _).1 hc))]
      rw [e]
      exact ⟨t, 0, by omega, Chunk.refl rd hr, Or.inr hm, by simp, fun i hi => absurd hi (Nat.not_lt_zero i)⟩

/-- Two mapped addresses less than a page apart: everything between is mapped. -/
theorem mp_between {t : Ideal} {a b : Nat} (h1 : Mp t a) (h2 : Mp t b) (h3 : b < a + 256) (i : Nat)
    (hi : a + i ≤ b) : Mp t (a + i) := by
  obtain ⟨x1, x2⟩ := h1
  obtain ⟨y1, y2⟩ := h2
  refine ⟨by omega, ?_⟩
  by_cases h : (a + i) / 256 = a / 256
  · rw [h]; exact x2
  · have : (a + i) / 256 = b / 256 := by omega
    rw [this]; exact y2

theorem viaMapper_spec (rd : Bool) {fin : Nat} {t : Ideal} {p : Pos} (hr : Rep W p.d t)
    (hsep : Sep W t) (h1 : p.addr ≤ fin) (h2 : fin < p.addr + 256) :
    ((viaMapper W rd fin p).2 = none ∧ ∃ t' m, Chunk W rd t p t' (viaMapper W rd fin p).1 m ∧
      p.addr + m ≤ fin ∧ ¬ Mp t (p.addr + m) ∧
      (viaMapper W rd fin p).1.found = (p.found || decide (0 < m))) ∨
    ((viaMapper W rd fin p).2 = some true ∧ ∃ t', Chunk W rd t p t'
      { (viaMapper W rd fin p).1 with addr := p.addr + (fin + 1 - p.addr),
                                      off := p.off + (fin + 1 - p.addr) } (fin + 1 - p.addr)) := by
  have keep : ∀ {x : Pos × Option Bool}, x = (p, none) → ¬ Mp t p.addr →
      (x.2 = none ∧ ∃ t' m, Chunk W rd t p t' x.1 m ∧ p.addr + m ≤ fin ∧ ¬ Mp t (p.addr + m) ∧
        x.1.found = (p.found || decide (0 < m))) := by
    rintro x rfl hm
    exact ⟨rfl, t, 0, Chunk.refl rd hr, h1, hm, by simp⟩
  cases hs : p.d.mapper with
  | none =>
    left
    refine keep (by unfold viaMapper; rw [hs]) (fun hm => ?_)
    obtain ⟨s, hs'⟩ := hr.some hm
    rw [hs] at hs'
    cases hs'
  | some s =>
    have e : viaMapper W rd fin p =
        if MemMap.isMapped W.mc s (p.addr : Int) && MemMap.isMapped W.mc s (fin : Int) then
          ((mapOp W rd s p (fin + 1 - p.addr)).1, some (mapOp W rd s p (fin + 1 - p.addr)).2)
        else if MemMap.isMapped W.mc s (p.addr : Int) then (mapBytes W rd (fin + 1 - p.addr) p, none)
        else (p, none) := by unfold viaMapper; rw [hs]
    have m1 := rep_mapped hr hs p.addr
    have m2 := rep_mapped hr hs fin
    by_cases hm1 : Mp t p.addr
    · by_cases hm2 : Mp t fin
      · right
        rw [e, if_pos (by rw [m1.2 hm1, m2.2 hm2]; rfl)]
        obtain ⟨c1, t', c2⟩ := mapOp_chunk rd hr hs (n := fin + 1 - p.addr)
          (fun i hi => mp_between hm1 hm2 (by omega) i (by omega)) hsep
        exact ⟨by rw [c1], t', c2⟩
      · left
        have hf : MemMap.isMapped W.mc s (fin : Int) = false :=
          Bool.eq_false_iff.2 (fun hc => hm2 (m2.1 hc))
        rw [e, if_neg (by rw [hf, Bool.and_false]; exact Bool.false_ne_true), if_pos (m1.2 hm1)]
        obtain ⟨t', m, b1, b2, b3, b4, b5⟩ := mapBytes_chunk rd (fin + 1 - p.addr) hr hsep
        have hlast : p.addr + m ≤ fin := by
          rcases Nat.lt_or_ge fin (p.addr + m) with hlt | hge
          · exfalso
            refine hm2 ?_
            have hpr := b5 (fin - p.addr) (by omega)
            have ee : p.addr + (fin - p.addr) = fin := by omega
            rwa [ee] at hpr
          · exact hge
        refine ⟨rfl, t', m, b2, hlast, ?_, b4⟩
        rcases b3 with b3 | b3
        · omega
        · exact b3
    · left
      have hf : MemMap.isMapped W.mc s (p.addr : Int) = false :=
        Bool.eq_false_iff.2 (fun hc => hm1 (m1.1 hc))
      refine keep ?_ hm1
      rw [e, hf]
      rfl

theorem eeInRange_iff (k : Kind) (a b : Nat) (h : a ≤ b) :
    eeInRange k a b = true ↔ k.eeStart ≤ a ∧ b < k.eeStart + k.eeSize := by
  unfold eeInRange
  rw [decide_eq_true_iff]
  exact ⟨fun h => h.2, fun h2 => ⟨h, h2⟩⟩

theorem ramInRange_iff (k : Kind) (a b : Nat) (h : a ≤ b) :
    ramInRange k a b = true ↔ k.ramStart ≤ a ∧ b < k.ramStart + k.ramSize := by
  unfold ramInRange
  rw [decide_eq_true_iff]
  exact ⟨fun h => h.2, fun h2 => ⟨h, h2⟩⟩

theorem viaEeprom_spec (rd : Bool) {fin : Nat} {t : Ideal} {p : Pos} (hr : Rep W p.d t)
    (hsep : Sep W t) (h1 : p.addr ≤ fin) :
    ((viaEeprom W rd fin p).2 = none ∧ ∃ m, Chunk W rd t p t (viaEeprom W rd fin p).1 m ∧
      p.addr + m ≤ fin ∧ (m = 0 → ¬ EeR W.kind p.addr) ∧
      (0 < m → p.addr + m = W.kind.eeStart + W.kind.eeSize) ∧
      (viaEeprom W rd fin p).1.found = (p.found || decide (0 < m))) ∨
    ((viaEeprom W rd fin p).2 = some true ∧ Chunk W rd t p t
      { (viaEeprom W rd fin p).1 with addr := p.addr + (fin + 1 - p.addr),
                                      off := p.off + (fin + 1 - p.addr) } (fin + 1 - p.addr)) := by
  have hf := kind_facts W.kind
  have i1 := eeInRange_iff W.kind p.addr fin h1
  have i2 : eeIn W.kind p.addr = true ↔ EeR W.kind p.addr := by
    unfold eeIn EeR; rw [decide_eq_true_iff]
  unfold viaEeprom
  by_cases hin : W.kind.eeStart ≤ p.addr ∧ fin < W.kind.eeStart + W.kind.eeSize
  · right
    rw [if_pos (i1.2 hin)]
    refine ⟨rfl, ?_⟩
    have e : fin - p.addr + 1 = fin + 1 - p.addr := by omega
    rw [e]
    have := eeCopy_chunk rd hr hsep (n := fin + 1 - p.addr) hin.1 (by omega) (by omega)
      (eeCopy W rd p (fin + 1 - p.addr)).found
    exact this
  · left
    rw [if_neg (fun hc => hin (i1.1 hc))]
    by_cases he : EeR W.kind p.addr
    · rw [if_pos (i2.2 he)]
      unfold EeR at he
      obtain ⟨n, hn⟩ : ∃ n, W.kind.eeStart + W.kind.eeSize - 1 - p.addr + 1 = n := ⟨_, rfl⟩
      dsimp only
      rw [hn]
      refine ⟨rfl, n, eeCopy_chunk rd hr hsep he.1 (by omega) (by omega) true, by omega,
        fun h0 => by omega, fun _ => by omega, ?_⟩
      have : decide (0 < n) = true := decide_eq_true (by omega)
      rw [this, Bool.or_true]
    · rw [if_neg (fun hc => he (i2.1 hc))]
      exact ⟨rfl, 0, Chunk.refl rd hr, h1, fun _ => he, fun h0 => absurd h0 (Nat.lt_irrefl 0), by simp⟩

theorem viaRam_spec (rd : Bool) {fin : Nat} {t : Ideal} {p : Pos} (hr : Rep W p.d t)
    (hsep : Sep W t) (h1 : p.addr ≤ fin)
    (halias : W.kind.ramStart = 0 ∨ p.addr ≠ 0x60 ∨ fin ≠ 0x60) :
    ((viaRam W rd fin p).2 = none ∧ ∃ m, Chunk W rd t p t (viaRam W rd fin p).1 m ∧
      p.addr + m ≤ fin ∧ (m = 0 → ¬ RamR W.kind p.addr) ∧
      (0 < m → p.addr + m = W.kind.ramStart + W.kind.ramSize) ∧
      (viaRam W rd fin p).1.found = (p.found || decide (0 < m))) ∨
    ((viaRam W rd fin p).2 = some true ∧ Chunk W rd t p t
      { (viaRam W rd fin p).1 with addr := p.addr + (fin + 1 - p.addr),
                                   off := p.off + (fin + 1 - p.addr) } (fin + 1 - p.addr)) := by
  have hf := kind_facts W.kind
  have i1 := ramInRange_iff W.kind p.addr fin h1
  have i2 : ramIn W.kind p.addr = true ↔ RamR W.kind p.addr := by
    unfold ramIn RamR; rw [decide_eq_true_iff]
  have i3 : (ramInRange W.kind p.addr fin || (isStatusAddress p.addr && isStatusAddress fin)) = true ↔
      W.kind.ramStart ≤ p.addr ∧ fin < W.kind.ramStart + W.kind.ramSize := by
    rw [Bool.or_eq_true, i1, Bool.and_eq_true]
    constructor
    · rintro (h | ⟨h2, h3⟩)
      · exact h
      · have e1 : p.addr = 0x60 := by simpa [isStatusAddress, statusOffset] using h2
        have e2 : fin = 0x60 := by simpa [isStatusAddress, statusOffset] using h3
        omega
    · exact Or.inl
  unfold viaRam
  by_cases hin : W.kind.ramStart ≤ p.addr ∧ fin < W.kind.ramStart + W.kind.ramSize
  · right
    rw [if_pos (i3.2 hin)]
    refine ⟨rfl, ?_⟩
    have e : fin - p.addr + 1 = fin + 1 - p.addr := by omega
    rw [e]
    have := ramCopy_chunk rd hr hsep (n := fin + 1 - p.addr) hin.1 (by omega) (by omega)
      (ramCopy W rd p (fin + 1 - p.addr)).found
    exact this
  · left
    rw [if_neg (fun hc => hin (i3.1 hc))]
    by_cases he : RamR W.kind p.addr
    · rw [if_pos (i2.2 he)]
      unfold RamR at he
      obtain ⟨n, hn⟩ : ∃ n, W.kind.ramStart + W.kind.ramSize - 1 - p.addr + 1 = n := ⟨_, rfl⟩
      dsimp only
      rw [hn]
      refine ⟨rfl, n, ramCopy_chunk rd hr hsep he.1 (by omega) (by omega) true, by omega,
        fun h0 => by omega, fun _ => by omega, ?_⟩
      have : decide (0 < n) = true := decide_eq_true (by omega)
      rw [this, Bool.or_true]
    · rw [if_neg (fun hc => he (i2.1 hc))]
      exact ⟨rfl, 0, Chunk.refl rd hr, h1, fun _ => he, fun h0 => absurd h0 (Nat.lt_irrefl 0), by simp⟩

/-- The request cannot reach the address 0x60 as its last byte in a device whose RAM does not begin
at 0. -/
def NoAlias (W : World) (t : Ideal) (addr fin : Nat) : Prop :=
  W.kind.ramStart = 0 ∨ fin ≠ 0x60 ∨ addr ≠ 0x60 ∨ Mp t 0x60

theorem noAlias_step {t : Ideal} {a fin m : Nat} (h : NoAlias W t a fin)
    (hp : ∀ i, i < m → Present W t (a + i)) : NoAlias W t (a + m) fin := by
  have hf := kind_facts W.kind
  unfold NoAlias at *
  by_cases hm : m = 0
  · rw [hm]; exact h
  · by_cases h0 : W.kind.ramStart = 0
    · exact Or.inl h0
    · by_cases ha : a + m = 0x60
      · right; right; right
        have := hp (m - 1) (by omega)
        have e : a + (m - 1) = 0x5f := by omega
        rw [e] at this
        rcases this with hmp | he | hr
        · unfold Mp at hmp ⊢; exact ⟨by omega, hmp.2⟩
        · unfold EeR at he; omega
        · unfold RamR at hr; omega
      · exact Or.inr (Or.inr (Or.inl ha))

theorem memIter_spec (rd : Bool) {fin : Nat} {t : Ideal} {p : Pos} (hr : Rep W p.d t)
    (hsep : Sep W t) (h1 : p.addr ≤ fin) (h2 : fin < p.addr + 256) (ha : NoAlias W t p.addr fin) :
    ((memIter W rd fin p).2 = none ∧ ∃ t' m, Chunk W rd t p t' (memIter W rd fin p).1 m ∧
      p.addr + m ≤ fin ∧ (m = 0 → ¬ Present W t p.addr) ∧
      (memIter W rd fin p).1.found = decide (0 < m)) ∨
    ((memIter W rd fin p).2 = some true ∧ ∃ t' p', Chunk W rd t p t' p' (fin + 1 - p.addr) ∧
      p'.d = (memIter W rd fin p).1.d ∧ p'.buf = (memIter W rd fin p).1.buf) := by
  obtain ⟨q, hq⟩ : ∃ q : Pos, ({ p with found := false } : Pos) = q := ⟨_, rfl⟩
  have hqd : q.d = p.d := by rw [← hq]
  have hqa : q.addr = p.addr := by rw [← hq]
  have hqo : q.off = p.off := by rw [← hq]
  have hqf : q.found = false := by rw [← hq]
  have back : ∀ {t' p' m}, Chunk W rd t q t' p' m → Chunk W rd t p t' p' m := by
    intro t' p' m h
    rw [← hq] at h
    exact h.flag p.found p'.found
  have hrq : Rep W q.d t := by rw [hqd]; exact hr
  unfold memIter
  rw [hq]
  rcases viaMapper_spec (W := W) rd (fin := fin) hrq hsep (by rw [hqa]; exact h1) (by rw [hqa]; exact h2)
    with ⟨hn, t1, m1, c1, a1, a2, a3⟩ | ⟨hs, t1, c1⟩
  · dsimp only
    rw [hn]
    dsimp only
    obtain ⟨p1, hp1⟩ : ∃ p1, (viaMapper W rd fin q).1 = p1 := ⟨_, rfl⟩
    rw [hp1] at c1 a3 ⊢
    have hsep1 := sep_congr c1.mapped hsep
    rcases viaEeprom_spec (W := W) rd (fin := fin) c1.rep hsep1 (by rw [c1.addr]; exact a1)
      with ⟨hn2, m2, c2, b1, b2, b3, b4⟩ | ⟨hs2, c2⟩
    · rw [hn2]
      dsimp only
      obtain ⟨p2, hp2⟩ : ∃ p2, (viaEeprom W rd fin p1).1 = p2 := ⟨_, rfl⟩
      rw [hp2] at c2 b4 ⊢
      have c12 := c1.trans c2
      have halias : W.kind.ramStart = 0 ∨ p2.addr ≠ 0x60 ∨ fin ≠ 0x60 := by
        have hf := kind_facts W.kind
        by_cases h0 : W.kind.ramStart = 0
        · exact Or.inl h0
        · by_cases he : p2.addr = 0x60
          · right; right
            intro hfin
            have hna := noAlias_step (W := W) (m := m1) (by rw [← hqa] at ha; exact ha) c1.present
            rcases Nat.eq_zero_or_pos m2 with hm2 | hm2
            · have e2 : q.addr + m1 = 0x60 := by
                have := c2.addr
                rw [c1.addr] at this
                omega
              rw [e2] at a2
              unfold NoAlias at hna
              rw [e2] at hna
              rcases hna with x | x | x | x
              · exact h0 x
              · exact x hfin
              · exact x rfl
              · exact a2 x
            · have := b3 hm2
              have e3 := c2.addr
              omega
          · exact Or.inr (Or.inl he)
      rcases viaRam_spec (W := W) rd (fin := fin) c2.rep hsep1 (by rw [c2.addr]; exact b1) halias
        with ⟨hn3, m3, c3, d1, d2, d3, d4⟩ | ⟨hs3, c3⟩
      · left
        have c123 := c12.trans c3
        refine ⟨hn3, t1, m1 + m2 + m3, back c123, ?_, ?_, ?_⟩
        · have e1 := c1.addr
          have e2 := c2.addr
          omega
        · intro hm hp
          have hm1 : m1 = 0 := by omega
          have hm2 : m2 = 0 := by omega
          have hm3 : m3 = 0 := by omega
          have e1 : p1.addr = p.addr := by rw [c1.addr, hqa, hm1]; rfl
          have e2 : p2.addr = p.addr := by rw [c2.addr, e1, hm2]; rfl
          rcases hp with hp | hp | hp
          · rw [hqa, hm1] at a2; exact a2 hp
          · refine b2 hm2 ?_; rw [e1]; exact hp
          · refine d2 hm3 ?_; rw [e2]; exact hp
        · rw [d4, b4, a3, hqf, Bool.false_or]
          by_cases x1 : 0 < m1
          · have : 0 < m1 + m2 + m3 := by omega
            simp [x1, this]
          · by_cases x2 : 0 < m2
            · have : 0 < m1 + m2 + m3 := by omega
              simp [x2, this]
            · have e : m1 + m2 + m3 = m3 := by omega
              rw [e]
              simp [x1, x2]
      · right
        · have c123 := back (c12.trans c3)
          have e : m1 + m2 + (fin + 1 - p2.addr) = fin + 1 - p.addr := by
            have e1 := c1.addr
            have e2 := c2.addr
            omega
          rw [e] at c123
          exact ⟨hs3, t1, _, c123, rfl, rfl⟩
    · right
      rw [hs2]
      have c12 := back (c1.trans c2)
      have e : m1 + (fin + 1 - p1.addr) = fin + 1 - p.addr := by
        have e1 := c1.addr
        omega
      rw [e] at c12
      exact ⟨rfl, t1, _, c12, rfl, rfl⟩
  · right
    dsimp only
    rw [hs]
    have c := back c1
    rw [hqa] at c
    exact ⟨rfl, t1, _, c, rfl, rfl⟩

theorem memLoop_spec (rd : Bool) {fin : Nat} (fuel : Nat) : ∀ {t : Ideal} {p : Pos}, Rep W p.d t →
    Sep W t → p.found = true → p.addr ≤ fin + 1 → fin < p.addr + 256 → fin + 1 < p.addr + fuel →
    NoAlias W t p.addr fin →
    ∃ t' p' m, Chunk W rd t p t' p' m ∧ p'.d = (memLoop W rd fin fuel p).1.d ∧
      p'.buf = (memLoop W rd fin fuel p).1.buf ∧
      (((memLoop W rd fin fuel p).2 = true ∧ p.addr + m = fin + 1) ∨
       ((memLoop W rd fin fuel p).2 = false ∧ p.addr + m ≤ fin ∧ ¬ Present W t (p.addr + m))) := by
  induction fuel with
  | zero => intro t p _ _ _ _ _ h; omega
  | succ fuel ih =>
    intro t p hr hsep hfd h1 h2 h3 ha
    have e : memLoop W rd fin (fuel + 1) p =
      if p.found = true ∧ p.addr ≤ fin then
        match (memIter W rd fin p).2 with
        | some b => ((memIter W rd fin p).1, b)
        | none => memLoop W rd fin fuel (memIter W rd fin p).1
      else (p, fin + 1 == p.addr) := rfl
    by_cases hle : p.addr ≤ fin
    · rw [e, if_pos ⟨hfd, hle⟩]
      rcases memIter_spec (W := W) rd hr hsep hle h2 ha with ⟨hn, t1, m, c, b1, b2, b3⟩ | ⟨hs, t1, p1, c, d1, d2⟩
      · rw [hn]
        dsimp only
        obtain ⟨p1, hp1⟩ : ∃ p1, (memIter W rd fin p).1 = p1 := ⟨_, rfl⟩
        rw [hp1] at c b3 ⊢
        by_cases hm : m = 0
        · have hp1f : p1.found = false := by rw [b3, hm]; rfl
          have hend : memLoop W rd fin fuel p1 = (p1, fin + 1 == p1.addr) := by
            cases fuel with
            | zero => rfl
            | succ n =>
              show (if p1.found = true ∧ p1.addr ≤ fin then _ else (p1, fin + 1 == p1.addr)) = _
              rw [if_neg (fun hc => by rw [hp1f] at hc; cases hc.1)]
          rw [hend]
          refine ⟨t1, p1, m, c, rfl, rfl, Or.inr ⟨?_, b1, ?_⟩⟩
          · have ea := c.addr
            show (fin + 1 == p1.addr) = false
            rw [beq_eq_false_iff_ne]
            omega
          · rw [hm]; exact b2 hm
        · have ea := c.addr
          obtain ⟨t2, p2, m2, c2, f1, f2, f3⟩ := ih c.rep (sep_congr c.mapped hsep)
            (by rw [b3]; exact decide_eq_true (by omega)) (by omega) (by omega) (by omega)
            (by
              rw [ea]
              have := noAlias_step ha c.present
              unfold NoAlias at this ⊢
              rw [mp_congr c.mapped]
              exact this)
          refine ⟨t2, p2, m + m2, c.trans c2, f1, f2, ?_⟩
          rw [ea, present_congr c.mapped, Nat.add_assoc] at f3
          exact f3
      · rw [hs]
        dsimp only
        exact ⟨t1, p1, fin + 1 - p.addr, c, d1, d2, Or.inl ⟨rfl, by omega⟩⟩
    · rw [e, if_neg (fun hc => hle hc.2)]
      refine ⟨t, p, 0, Chunk.refl rd hr, rfl, rfl, Or.inl ⟨?_, by omega⟩⟩
      show (fin + 1 == p.addr) = true
      rw [beq_iff_eq]
      omega

/-- A memory operation handles a prefix of the request; it succeeds if the prefix is everything,
otherwise there is no memory at the next address. -/
theorem memOp_spec (rd : Bool) {d : Dev} {t : Ideal} (hr : Rep W d t) (hsep : Sep W t) (start : Nat)
    (buf : Nat → Byte) (off len : Nat) (h0 : 0 < len) (hlen : len ≤ 256)
    (ha : NotStatusAlias W start len) :
    ∃ t' p' m, Chunk W rd t ⟨d, buf, start, off, true⟩ t' p' m ∧
      memOp W rd d start buf off len = (p'.d, p'.buf, decide (m = len)) ∧
      (m = len ∨ (m < len ∧ ¬ Present W t (start + m))) := by
  have hna : NoAlias W t start (start + len - 1) := by
    unfold NoAlias NotStatusAlias at *
    omega
  obtain ⟨t', p', m, c, h1, h2, h3⟩ := memLoop_spec (W := W) rd (fin := start + len - 1) (len + 1)
    (p := ⟨d, buf, start, off, true⟩) hr hsep rfl (by dsimp only; omega) (by dsimp only; omega)
    (by dsimp only; omega) hna
  refine ⟨t', p', m, c, ?_, ?_⟩
  · unfold memOp
    rw [if_neg (by omega)]
    dsimp only
    rw [← h1, ← h2]
    rcases h3 with ⟨h3, h4⟩ | ⟨h3, h4, _⟩
    · rw [h3, decide_eq_true (by dsimp only at h4; omega)]
    · rw [h3, decide_eq_false (by dsimp only at h4; omega)]
  · rcases h3 with ⟨_, h4⟩ | ⟨_, h4, h5⟩
    · left; dsimp only at h4; omega
    · right; exact ⟨by dsimp only at h4; omega, h5⟩

end Verif.Dev
