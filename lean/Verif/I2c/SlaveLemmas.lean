import Verif.I2c.SpecSlave
import Mathlib.Data.List.Induction

/-! # Lemmas for the I2C slave: one action of a master at a time -/

namespace Verif.I2c.Slave

open Verif

theorem same_iff (d m a : Byte) :
    ((d &&& ~~~(m ||| 1#8)) == (a &&& ~~~(m ||| 1#8))) = true ↔ SameAddress d m a := by
  rw [beq_iff_eq]
  constructor
  · intro h i h1 h8
    have hi := congrArg (fun v : Byte => v.getLsbD i) h
    simp only [BitVec.getLsbD_and, BitVec.getLsbD_not, BitVec.getLsbD_or] at hi
    have h0 : (1#8).getLsbD i = false := by
      have : ∀ i : Fin 8, 1 ≤ i.val → (1#8).getLsbD i.val = false := by decide
      exact this ⟨i, h8⟩ h1
    rw [h0] at hi
    cases hm : m.getLsbD i with
    | true => exact Or.inl rfl
    | false =>
      right
      rw [hm] at hi
      simpa only [Bool.or_self, h8, decide_true, Bool.not_false, Bool.and_true] using hi
  · intro h
    apply BitVec.eq_of_getLsbD_eq
    intro i h8
    simp only [BitVec.getLsbD_and, BitVec.getLsbD_not, BitVec.getLsbD_or]
    by_cases h0 : i = 0
    · subst h0; simp
    · rcases h i (by omega) h8 with hm | he
      · simp [hm]
      · rw [he]

theorem given_snoc (c : Config) (e : Nat × Xfer × Byte) (k : Nat) :
    given (c ++ [e]) k = if e.1 = k then some e.2 else given c k := by
  unfold given
  rw [List.reverse_append]
  by_cases h : e.1 = k <;> simp [h]

theorem started_snoc (c : Config) (e : Nat × Xfer × Byte) :
    started (c ++ [e]) = setup (started c) e.1 e.2.1 e.2.2 := by
  simp [started]

theorem started_slaves (c : Config) (k : Nat) : (started c).slaves k = (given c k).map (·.1) := by
  induction c using List.reverseRecOn with
  | nil => rfl
  | append_singleton c e ih =>
    rw [started_snoc, given_snoc]
    by_cases h : k = e.1
    · simp [setup, h]
    · have h' : ¬ e.1 = k := fun x => h x.symm
      simp [setup, h, h', ih]

theorem started_adr (c : Config) (k : Nat) :
    (started c).adr k = ((given c (k + 1)).map (·.1.addr)).getD 0#8 := by
  induction c using List.reverseRecOn with
  | nil => rfl
  | append_singleton c e ih =>
    rw [started_snoc, given_snoc]
    by_cases h : e.1 = k + 1
    · simp [setup, h]
    · by_cases h0 : e.1 = 0
      · simp [setup, h0, ih]
      · have h2 : ¬ k = e.1 - 1 := by omega
        simp [setup, h, h0, h2, ih]

theorem started_mask (c : Config) (k : Nat) :
    (started c).mask k = ((given c (k + 1)).map (·.2)).getD 0#8 := by
  induction c using List.reverseRecOn with
  | nil => rfl
  | append_singleton c e ih =>
    rw [started_snoc, given_snoc]
    by_cases h : e.1 = k + 1
    · simp [setup, h]
    · by_cases h0 : e.1 = 0
      · simp [setup, h0, ih]
      · have h2 : ¬ k = e.1 - 1 := by omega
        simp [setup, h, h0, h2, ih]

theorem started_idle (c : Config) (hc : c ≠ []) :
    (started c).mode = .idle ∧ (started c).cur = none ∧ (started c).undef = false ∧ (started c).active = true
      ∧ (started c).aa = true ∧ (started c).sta = false ∧ (started c).events = [] := by
  induction c using List.reverseRecOn with
  | nil => exact absurd rfl hc
  | append_singleton c e ih =>
    rw [started_snoc]
    by_cases h : c = []
    · subst h; simp [started, setup, St.init]
    · obtain ⟨h1, h2, h3, h4, h5, h6, h7⟩ := ih h
      simp [setup, h1, h2, h3, h4, h5, h6, h7]

theorem given_mem {c : Config} {k : Nat} {x : Xfer} {m : Byte} (h : given c k = some (x, m)) : (k, x, m) ∈ c := by
  unfold given at h
  rw [Option.map_eq_some_iff] at h
  obtain ⟨e, he, hx⟩ := h
  have h1 := List.find?_some he
  have h2 := List.mem_of_find?_eq_some he
  simp only [beq_iff_eq] at h1
  rw [List.mem_reverse] at h2
  have : e = (k, x, m) := by rw [← h1, ← hx]
  rwa [this] at h2

/-- Fields no call or release changes. -/
def Same (x y : Xfer) : Prop :=
  y.rx = x.rx ∧ y.rxSz = x.rxSz ∧ y.txMem = x.txMem ∧ y.txPos = x.txPos ∧ y.txSz = x.txSz ∧ y.oob = x.oob ∧ y.over = x.over

theorem Same.refl (x : Xfer) : Same x x := ⟨rfl, rfl, rfl, rfl, rfl, rfl, rfl⟩

theorem Same.trans {x y z : Xfer} (h : Same x y) (g : Same y z) : Same x z := by
  obtain ⟨a1, a2, a3, a4, a5, a6, a7⟩ := h
  obtain ⟨b1, b2, b3, b4, b5, b6, b7⟩ := g
  exact ⟨b1.trans a1, b2.trans a2, b3.trans a3, b4.trans a4, b5.trans a5, b6.trans a6, b7.trans a7⟩

/-- What holds between the actions of a master. -/
structure Inv (c : Config) (s : St) : Prop where
  adr : s.adr = (started c).adr
  mask : s.mask = (started c).mask
  undef : s.undef = false
  sta : s.sta = false
  isSome : ∀ j, (s.slaves j).isSome = (given c j).isSome
  idle : s.mode = .idle → s.cur = none ∧ s.aa = true
  recv : ∀ gc, s.mode = .receiver gc →
    ∃ j x, s.cur = some j ∧ s.slaves j = some x ∧ s.aa = decide (x.rxSz > 1) ∧ x.addr.getLsbD 0 = false
  tra : s.mode = .transmitter →
    ∃ j x, s.cur = some j ∧ s.slaves j = some x ∧ s.aa = decide (x.txSz > 0) ∧ x.addr.getLsbD 0 = false

theorem inv_started (c : Config) (hc : c ≠ []) : Inv c (started c) := by
  obtain ⟨h1, h2, h3, _, h5, h6, _⟩ := started_idle c hc
  refine ⟨rfl, rfl, h3, h6, ?_, fun _ => ⟨h2, h5⟩, ?_, ?_⟩
  · intro j; rw [started_slaves]; simp
  · intro gc h; rw [h1] at h; cases h
  · intro h; rw [h1] at h; cases h

/-- The end of a transfer. -/
theorem finish (c : Config) (s : St) (st : Nat) (d : Byte) (j : Nat) (x : Xfer)
    (ha : s.adr = (started c).adr) (hm : s.mask = (started c).mask) (hu : s.undef = false)
    (hs : ∀ j, (s.slaves j).isSome = (given c j).isSome)
    (hst : st = 0xC0 ∨ st = 0xC8 ∨ st = 0x88 ∨ st = 0x98 ∨ st = 0xA0)
    (hj : s.cur = some j) (hx : s.slaves j = some x) (h0 : x.addr.getLsbD 0 = false) :
    let s' := stateHandler { s with stat := st, mode := .idle, dat := d }
    Inv c s' ∧ s'.mode = .idle ∧ s'.events = s.events ++ [(j, .done)]
      ∧ s'.slaves = fun i => if i = j then some { x with done := true } else s.slaves i := by
  have h0' : x.addr[0] = false := by rw [← BitVec.getLsbD_eq_getElem]; exact h0
  have hh : handleXfer st d x = ⟨{ x with done := true }, d, true, false, some .done⟩ := by
    rcases hst with rfl | rfl | rfl | rfl | rfl <;> simp [handleXfer, h0']
  have key : stateHandler { s with stat := st, mode := .idle, dat := d } =
      { s with stat := st, mode := .idle, dat := d, aa := true, sta := false, cur := none,
               slaves := fun i => if i = j then some { x with done := true } else s.slaves i,
               events := s.events ++ [(j, .done)] } := by
    simp [stateHandler, hj, hx, hh]
  intro s'
  have hs' : s' = _ := key
  rw [hs']
  refine ⟨⟨ha, hm, hu, rfl, ?_, fun _ => ⟨rfl, rfl⟩, ?_, ?_⟩, rfl, rfl, rfl⟩
  · intro i
    by_cases h : i = j
    · subst h; rw [← hs i, hx]; simp
    · simp [h, hs i]
  · intro gc h; cases h
  · intro h; cases h

theorem slaves_same {f : Nat → Option Xfer} {j : Nat} {x y : Xfer} (hx : f j = some x) (hy : Same x y)
    (i : Nat) (z : Xfer) (hz : f i = some z) :
    ∃ w, (if i = j then some y else f i) = some w ∧ Same z w := by
  by_cases h : i = j
  · subst h
    rw [hx] at hz
    cases hz
    exact ⟨y, by simp, hy⟩
  · exact ⟨z, by simp [h, hz], Same.refl z⟩

theorem count_done (l : List (Nat × Event)) (j k : Nat) :
    (l ++ [(j, Event.done)]).count (k, Event.rx) = l.count (k, Event.rx) := by
  rw [List.count_append]; simp

theorem count_tx (l : List (Nat × Event)) (j k : Nat) :
    (l ++ [(j, Event.tx)]).count (k, Event.rx) = l.count (k, Event.rx) := by
  rw [List.count_append]; simp

theorem release_spec (c : Config) (s : St) (h : Inv c s) :
    Inv c (release s) ∧ (release s).mode = .idle
      ∧ (∀ k, (release s).events.count (k, .rx) = s.events.count (k, .rx))
      ∧ ∀ i z, s.slaves i = some z → ∃ w, (release s).slaves i = some w ∧ Same z w := by
  have go : ∀ j x, s.cur = some j → s.slaves j = some x → x.addr.getLsbD 0 = false → s.mode ≠ .idle →
      Inv c (release s) ∧ (release s).mode = .idle
      ∧ (∀ k, (release s).events.count (k, .rx) = s.events.count (k, .rx))
      ∧ ∀ i z, s.slaves i = some z → ∃ w, (release s).slaves i = some w ∧ Same z w := by
    intro j x hj hx h0 hm
    have hr : release s = stateHandler { s with stat := 0xA0, mode := .idle, dat := s.dat } := by
      simp [release, hm]
    have f := finish c s 0xA0 s.dat j x h.adr h.mask h.undef h.isSome (by simp) hj hx h0
    rw [hr]
    obtain ⟨f1, f2, f3, f4⟩ := f
    refine ⟨f1, f2, ?_, ?_⟩
    · intro k; rw [f3, count_done]
    · rw [f4]; exact fun i z hz => slaves_same hx (show Same x { x with done := true } from Same.refl x) i z hz
  cases hm : s.mode with
  | idle =>
    have hr : release s = s := by simp [release, hm]
    rw [hr]
    exact ⟨h, hm, fun _ => rfl, fun i z hz => ⟨z, hz, Same.refl z⟩⟩
  | receiver gc =>
    obtain ⟨j, x, h1, h2, _, h4⟩ := h.recv gc hm
    exact go j x h1 h2 h4 (by rw [hm]; simp)
  | transmitter =>
    obtain ⟨j, x, h1, h2, _, h4⟩ := h.tra hm
    exact go j x h1 h2 h4 (by rw [hm]; simp)

theorem has_iff (c : Config) (hv : Valid c) (a : Byte) (ha : a >>> 1 ≠ 0#8) (k : Nat) (hk : k < 4) :
    matching ((started c).adr k) a ((started c).mask k) = true ↔ HasAddress c (k + 1) a := by
  unfold matching
  rw [same_iff, started_adr, started_mask]
  cases hg : given c (k + 1) with
  | none =>
    constructor
    · intro h
      exfalso
      apply ha
      apply BitVec.eq_of_getLsbD_eq
      intro i hi
      rw [BitVec.getLsbD_ushiftRight]
      by_cases h7 : 1 + i < 8
      · rcases h (1 + i) (by omega) h7 with h1 | h1
        · simp at h1
        · simpa using h1.symm
      · rw [BitVec.getLsbD_of_ge a (1 + i) (by omega)]; simp
    · rintro ⟨_, _, x, m, h, _⟩
      rw [hg] at h; cases h
  | some p =>
    obtain ⟨x, m⟩ := p
    constructor
    · intro h
      exact ⟨by omega, by omega, x, m, hg, h⟩
    · rintro ⟨_, _, x', m', h, h2⟩
      rw [hg] at h; cases h
      exact h2

theorem adr_ne (c : Config) (hv : Valid c) (k : Nat) (p : Xfer × Byte) (hg : given c (k + 1) = some p) :
    (started c).adr k ≠ 0#8 := by
  rw [started_adr, hg]
  exact hv.address _ (given_mem (x := p.1) (m := p.2) hg) (by simp)

theorem own_iff (c : Config) (hv : Valid c) (s : St) (h : Inv c s) (a : Byte) (ha : a >>> 1 ≠ 0#8) :
    ownAddress s a = true ↔ ∃ k, HasAddress c k a := by
  unfold ownAddress
  rw [h.adr, h.mask, List.any_eq_true]
  constructor
  · rintro ⟨k, hk, h2⟩
    rw [List.mem_range] at hk
    rw [Bool.and_eq_true] at h2
    exact ⟨k + 1, (has_iff c hv a ha k hk).mp h2.2⟩
  · rintro ⟨k, hk⟩
    obtain ⟨h1, h4, x, m, hg, _⟩ := id hk
    obtain ⟨n, rfl⟩ : ∃ n, k = n + 1 := ⟨k - 1, by omega⟩
    refine ⟨n, List.mem_range.mpr (by omega), ?_⟩
    rw [Bool.and_eq_true]
    exact ⟨by simpa using adr_ne c hv n _ hg, (has_iff c hv a ha n (by omega)).mpr hk⟩

theorem lookup_first (c : Config) (hv : Valid c) (s : St) (h : Inv c s) (a : Byte) (ha : a >>> 1 ≠ 0#8)
    (hex : ∃ k, HasAddress c k a) : HasAddress c (lookup s a) a ∧ ∀ j, HasAddress c j a → lookup s a ≤ j := by
  have m := has_iff c hv a ha
  have m0 := m 0 (by omega)
  have m1 := m 1 (by omega)
  have m2 := m 2 (by omega)
  have m3 := m 3 (by omega)
  have pos : ∀ j, HasAddress c j a → j = 1 ∨ j = 2 ∨ j = 3 ∨ j = 4 := by
    rintro j ⟨h1, h4, _⟩; omega
  unfold lookup
  rw [if_neg ha, h.adr, h.mask]
  by_cases h0 : matching ((started c).adr 0) a ((started c).mask 0) = true
  · rw [if_pos h0]
    exact ⟨m0.mp h0, fun j hj => by have := pos j hj; omega⟩
  rw [if_neg h0]
  have n0 : ¬ HasAddress c 1 a := fun x => h0 (m0.mpr x)
  by_cases h1 : matching ((started c).adr 1) a ((started c).mask 1) = true
  · rw [if_pos h1]
    refine ⟨m1.mp h1, fun j hj => ?_⟩
    rcases pos j hj with rfl | rfl | rfl | rfl
    · exact absurd hj n0
    all_goals omega
  rw [if_neg h1]
  have n1 : ¬ HasAddress c 2 a := fun x => h1 (m1.mpr x)
  by_cases h2 : matching ((started c).adr 2) a ((started c).mask 2) = true
  · rw [if_pos h2]
    refine ⟨m2.mp h2, fun j hj => ?_⟩
    rcases pos j hj with rfl | rfl | rfl | rfl
    · exact absurd hj n0
    · exact absurd hj n1
    all_goals omega
  rw [if_neg h2]
  have n2 : ¬ HasAddress c 3 a := fun x => h2 (m2.mpr x)
  by_cases h3 : matching ((started c).adr 3) a ((started c).mask 3) = true
  · rw [if_pos h3]
    refine ⟨m3.mp h3, fun j hj => ?_⟩
    rcases pos j hj with rfl | rfl | rfl | rfl
    · exact absurd hj n0
    · exact absurd hj n1
    · exact absurd hj n2
    · omega
  have n3 : ¬ HasAddress c 4 a := fun x => h3 (m3.mpr x)
  obtain ⟨k, hk⟩ := hex
  rcases pos k hk with rfl | rfl | rfl | rfl
  · exact absurd hk n0
  · exact absurd hk n1
  · exact absurd hk n2
  · exact absurd hk n3

theorem general_iff (c : Config) (s : St) (h : Inv c s) :
    generalCall s = true ↔ ∃ j x m, 1 ≤ j ∧ j ≤ 4 ∧ given c j = some (x, m) ∧ x.addr.getLsbD 0 = true := by
  unfold generalCall
  rw [h.adr, List.any_eq_true]
  constructor
  · rintro ⟨k, hk, h2⟩
    rw [List.mem_range] at hk
    rw [started_adr] at h2
    cases hg : given c (k + 1) with
    | none => rw [hg] at h2; simp at h2
    | some p => rw [hg] at h2; exact ⟨k + 1, p.1, p.2, by omega, by omega, hg, h2⟩
  · rintro ⟨j, x, m, h1, h4, hg, hb⟩
    obtain ⟨n, rfl⟩ : ∃ n, j = n + 1 := ⟨j - 1, by omega⟩
    refine ⟨n, List.mem_range.mpr (by omega), ?_⟩
    rw [started_adr, hg]
    exact hb

theorem serves_unique {c : Config} {a : Byte} {k j : Nat} (h : Serves c k a) (g : Serves c j a) : k = j := by
  rcases h with ⟨rfl, ha, _⟩ | ⟨ha, h1, h2⟩ <;> rcases g with ⟨rfl, gb, _⟩ | ⟨gb, g1, g2⟩
  · rfl
  · subst ha; exact absurd (by decide) gb
  · subst gb; exact absurd (by decide) ha
  · exact Nat.le_antisymm (h2 j g1) (g2 k h1)

theorem serves_given {c : Config} (hv : Valid c) {a : Byte} {k : Nat} (h : Serves c k a) :
    (given c k).isSome = true := by
  rcases h with ⟨rfl, _, j, x, m, h1, _, hg, hb⟩ | ⟨_, ⟨_, _, x, m, hg, _⟩, _⟩
  · obtain ⟨y, hy⟩ := hv.general _ (given_mem hg) (by simp; omega) hb
    rw [hy]; rfl
  · rw [hg]; rfl

/-- The controller answers exactly the address bytes some slave has to serve. -/
theorem called_iff (c : Config) (hv : Valid c) (s : St) (h : Inv c s) (haa : s.aa = true) (a : Byte) :
    (called s a = none ∧ ∀ k, ¬ Serves c k a)
    ∨ (Serves c (lookup s a) a ∧
        ((a.getLsbD 0 = true ∧ called s a = some (0xA8, .transmitter))
        ∨ (a.getLsbD 0 = false ∧ (called s a = some (0x60, .receiver false) ∨ called s a = some (0x70, .receiver true))))) := by
  unfold called
  rw [haa]
  simp only [Bool.not_true, Bool.false_eq_true, if_false]
  by_cases ha : a >>> 1 = 0#8
  · rw [if_pos ha]
    by_cases hz : a = 0#8
    · by_cases hg : generalCall s = true
      · right
        refine ⟨?_, Or.inr ⟨by rw [hz]; decide, Or.inr ?_⟩⟩
        · left
          exact ⟨by unfold lookup; rw [if_pos ha], hz, (general_iff c s h).mp hg⟩
        · simp [hz, hg]
      · left
        refine ⟨by simp [hg], ?_⟩
        rintro k (⟨_, _, hx⟩ | ⟨hx, _⟩)
        · exact hg ((general_iff c s h).mpr hx)
        · exact hx ha
    · left
      refine ⟨by simp [hz], ?_⟩
      rintro k (⟨_, hx, _⟩ | ⟨hx, _⟩)
      · exact hz hx
      · exact hx ha
  · rw [if_neg ha]
    by_cases ho : ownAddress s a = true
    · right
      rw [if_pos ho]
      refine ⟨Or.inr ⟨ha, lookup_first c hv s h a ha ((own_iff c hv s h a ha).mp ho)⟩, ?_⟩
      by_cases hb : a.getLsbD 0 = true
      · left; rw [if_pos hb]; exact ⟨hb, rfl⟩
      · right; rw [if_neg hb]; exact ⟨by simpa using hb, Or.inl rfl⟩
    · left
      rw [if_neg ho]
      refine ⟨rfl, ?_⟩
      rintro k (⟨_, hx, _⟩ | ⟨_, hx, _⟩)
      · subst hx; exact ha (by decide)
      · exact ho ((own_iff c hv s h a ha).mpr ⟨k, hx⟩)

/-- Another transfer for one slave keeps which slaves are set up. -/
theorem isSome_upd {c : Config} {f : Nat → Option Xfer} (hs : ∀ j, (f j).isSome = (given c j).isSome)
    {j : Nat} {x : Xfer} (hx : f j = some x) (y : Xfer) (i : Nat) :
    (if i = j then some y else f i).isSome = (given c i).isSome := by
  by_cases h : i = j
  · subst h; rw [← hs i, hx]; simp
  · simp [h, hs i]

theorem even_and (a : Byte) : (a &&& 0xfe#8).getLsbD 0 = false := by
  rw [BitVec.getLsbD_and]; simp

theorem handler_eq (s : St) (k : Nat) (x : Xfer) (r : Handled) (hk : s.cur.getD (slaveIndex s) = k)
    (hx : s.slaves k = some x) (hh : handleXfer s.stat s.dat x = r) :
    stateHandler s = { s with
      slaves := fun j => if j = k then some r.x else s.slaves j
      dat := r.dat, aa := r.aa, sta := r.sta
      cur := if r.ev.isSome ∧ r.x.done then none else some k
      events := s.events ++ (r.ev.map fun e => (k, e)).toList } := by
  subst hh
  subst hk
  simp only [stateHandler, hx]

theorem index_call (r : St) (q : St) (a : Byte) (h1 : q.adr = r.adr) (h2 : q.mask = r.mask) (hd : q.dat = a)
    (hc : q.cur = none) (hst : q.stat = 0x60 ∨ q.stat = 0x70 ∨ q.stat = 0xA8) :
    q.cur.getD (slaveIndex q) = lookup r a := by
  have : lookup q a = lookup r a := by unfold lookup; rw [h1, h2]
  rw [hc, Option.getD_none, slaveIndex, if_pos (by omega), hd, this]

/-- A call nobody has to serve. -/
theorem call_other (c : Config) (hv : Valid c) (s : St) (h : Inv c s) (a : Byte) (hn : ∀ k, ¬ Serves c k a) :
    step s (.call a) = (release s, .call a false) := by
  obtain ⟨hi, hm, _, _⟩ := release_spec c s h
  rcases called_iff c hv (release s) hi (hi.idle hm).2 a with ⟨h1, _⟩ | ⟨h1, _⟩
  · simp [step, h1]
  · exact absurd h1 (hn _)

/-- A call for writing. -/
theorem call_write (c : Config) (hv : Valid c) (s : St) (h : Inv c s) (a : Byte) (k : Nat) (hk : Serves c k a)
    (hb : a.getLsbD 0 = false) :
    (step s (.call a)).2 = .call a true ∧ Inv c (step s (.call a)).1
      ∧ (∃ gc, (step s (.call a)).1.mode = .receiver gc) ∧ (step s (.call a)).1.cur = some k
      ∧ (∃ w, (step s (.call a)).1.slaves k = some w ∧ w.addr = a &&& 0xfe#8)
      ∧ (∀ j, (step s (.call a)).1.events.count (j, .rx) = s.events.count (j, .rx))
      ∧ ∀ i z, s.slaves i = some z → ∃ w, (step s (.call a)).1.slaves i = some w ∧ Same z w := by
  obtain ⟨hi, hm, he, hsl⟩ := release_spec c s h
  obtain ⟨hcur, haa⟩ := hi.idle hm
  generalize hr : release s = r at *
  rcases called_iff c hv r hi haa a with ⟨_, h1⟩ | ⟨h1, h2⟩
  · exact absurd hk (h1 k)
  have hl : lookup r a = k := serves_unique h1 hk
  obtain ⟨x, hx⟩ := Option.isSome_iff_exists.mp ((hi.isSome k).trans (serves_given hv hk))
  obtain ⟨st, gc, hst, hca⟩ : ∃ st gc, (st = 0x60 ∨ st = 0x70) ∧ called r a = some (st, .receiver gc) := by
    rcases h2 with ⟨h3, _⟩ | ⟨_, h3 | h3⟩
    · rw [hb] at h3; cases h3
    · exact ⟨_, _, Or.inl rfl, h3⟩
    · exact ⟨_, _, Or.inr rfl, h3⟩
  have hh : handleXfer st a x = ⟨{ x with done := false, addr := a &&& 0xfe#8 }, a, decide (x.rxSz > 1), false, none⟩ := by
    rcases hst with rfl | rfl <;> simp [handleXfer]
  have key : step s (.call a) =
      ({ r with stat := st, mode := .receiver gc, dat := a, aa := decide (x.rxSz > 1), sta := false, cur := some k,
                slaves := fun i => if i = k then some { x with done := false, addr := a &&& 0xfe#8 } else r.slaves i },
        .call a true) := by
    simp only [step, hr, hca]
    rw [handler_eq { r with stat := st, mode := .receiver gc, dat := a } k x _
      ((index_call r { r with stat := st, mode := .receiver gc, dat := a } a rfl rfl rfl hcur
        (by rcases hst with h | h <;> simp [h])).trans hl) hx hh]
    simp
  rw [key]
  refine ⟨rfl, ⟨hi.adr, hi.mask, hi.undef, rfl, ?_, ?_, ?_, ?_⟩, ⟨gc, rfl⟩, rfl, ⟨_, if_pos rfl, rfl⟩, he, ?_⟩
  · exact isSome_upd hi.isSome hx _
  · intro h; cases h
  · intro g _; exact ⟨k, _, rfl, if_pos rfl, rfl, even_and a⟩
  · intro h; cases h
  · intro i z hz
    obtain ⟨w, hw, hzw⟩ := hsl i z hz
    obtain ⟨v, hv', hwv⟩ := slaves_same hx
      (show Same x { x with done := false, addr := a &&& 0xfe#8 } from Same.refl x) i w hw
    exact ⟨v, hv', hzw.trans hwv⟩

/-- The transfer after the next byte was put into the data register. -/
def loaded (x : Xfer) (a : Byte) : Xfer :=
  { x with done := false, addr := a, txPos := x.txPos + 1, txSz := x.txSz - 1, over := x.over || decide (x.txSz ≤ 0) }

/-- A call for reading. -/
theorem call_read (c : Config) (hv : Valid c) (s : St) (h : Inv c s) (a : Byte) (k : Nat) (hk : Serves c k a)
    (hb : a.getLsbD 0 = true) :
    (step s (.call a)).2 = .call a true ∧ Inv c (step s (.call a)).1
      ∧ (step s (.call a)).1.mode = .transmitter ∧ (step s (.call a)).1.cur = some k
      ∧ (∃ w, (step s (.call a)).1.slaves k = some w ∧ w.addr = a &&& 0xfe#8)
      ∧ (∀ j, (step s (.call a)).1.events.count (j, .rx) = s.events.count (j, .rx))
      ∧ (∀ i z, i ≠ k → s.slaves i = some z → ∃ w, (step s (.call a)).1.slaves i = some w ∧ Same z w)
      ∧ ∀ z, s.slaves k = some z → (step s (.call a)).1.dat = z.txMem z.txPos
          ∧ ∃ w, (step s (.call a)).1.slaves k = some w ∧ Same (loaded z w.addr) w := by
  obtain ⟨hi, hm, he, hsl⟩ := release_spec c s h
  obtain ⟨hcur, haa⟩ := hi.idle hm
  generalize hr : release s = r at *
  rcases called_iff c hv r hi haa a with ⟨_, h1⟩ | ⟨h1, h2⟩
  · exact absurd hk (h1 k)
  have hl : lookup r a = k := serves_unique h1 hk
  obtain ⟨x, hx⟩ := Option.isSome_iff_exists.mp ((hi.isSome k).trans (serves_given hv hk))
  have hca : called r a = some (0xA8, .transmitter) := by
    rcases h2 with ⟨_, h3⟩ | ⟨h3, _⟩
    · exact h3
    · rw [hb] at h3; cases h3
  have hh : handleXfer 0xA8 a x
      = ⟨loaded x (a &&& 0xfe#8), x.txMem x.txPos, decide (x.txSz - 1 > 0), false, some .tx⟩ := by
    simp [handleXfer, loaded]
  have key : step s (.call a) =
      ({ r with stat := 0xA8, mode := .transmitter, dat := x.txMem x.txPos, aa := decide (x.txSz - 1 > 0), sta := false,
                cur := some k, events := r.events ++ [(k, .tx)]
                slaves := fun i => if i = k then some (loaded x (a &&& 0xfe#8)) else r.slaves i },
        .call a true) := by
    simp only [step, hr, hca]
    rw [handler_eq { r with stat := 0xA8, mode := .transmitter, dat := a } k x _
      ((index_call r { r with stat := 0xA8, mode := .transmitter, dat := a } a rfl rfl rfl hcur (by simp)).trans hl) hx hh]
    simp [loaded]
  rw [key]
  refine ⟨rfl, ⟨hi.adr, hi.mask, hi.undef, rfl, ?_, ?_, ?_, ?_⟩, rfl, rfl, ⟨_, if_pos rfl, rfl⟩, ?_, ?_, ?_⟩
  · exact isSome_upd hi.isSome hx _
  · intro h; cases h
  · intro g h; cases h
  · intro _; exact ⟨k, _, rfl, if_pos rfl, rfl, even_and a⟩
  · intro j; exact (count_tx _ _ _).trans (he j)
  · intro i z hik hz
    obtain ⟨w, hw, hzw⟩ := hsl i z hz
    exact ⟨w, by simp [hik, hw], hzw⟩
  · intro z hz
    obtain ⟨w, hw, hzw⟩ := hsl k z hz
    rw [hx] at hw
    cases hw
    obtain ⟨b1, b2, b3, b4, b5, b6, b7⟩ := hzw
    refine ⟨by simp only [b3, b4], _, if_pos rfl, b1, b2, b3, ?_, ?_, b6, ?_⟩
    · simp only [loaded, b4]
    · simp only [loaded, b5]
    · simp only [loaded, b5, b7]

/-- The transfer after a byte was stored. -/
def stored (x : Xfer) (b : Byte) : Xfer := { x with done := false, rx := x.rx ++ [b], rxSz := x.rxSz - 1 }

/-- A byte that is taken. -/
theorem write_take (c : Config) (s : St) (h : Inv c s) (gc : Bool) (hm : s.mode = .receiver gc) (j : Nat) (x : Xfer)
    (hj : s.cur = some j) (hx : s.slaves j = some x) (hsz : x.rxSz > 1) (b : Byte) :
    (step s (.write b)).2 = .write b true ∧ Inv c (step s (.write b)).1
      ∧ (step s (.write b)).1.mode = .receiver gc ∧ (step s (.write b)).1.cur = some j
      ∧ (step s (.write b)).1.events = s.events ++ [(j, .rx)]
      ∧ (step s (.write b)).1.slaves = fun i => if i = j then some (stored x b) else s.slaves i := by
  obtain ⟨j', x', h1, h2, haa, h0⟩ := h.recv gc hm
  rw [hj] at h1; cases h1
  rw [hx] at h2; cases h2
  have haa' : s.aa = true := by rw [haa]; simpa using hsz
  have ho : decide (x.rxSz ≤ 0) = false := by simp; omega
  have hh : handleXfer (if gc then 0x90 else 0x80) b x = ⟨stored x b, b, decide (x.rxSz - 1 > 1), false, some .rx⟩ := by
    cases gc <;> simp [handleXfer, stored, ho]
  have key : step s (.write b) =
      ({ s with stat := if gc then 0x90 else 0x80, dat := b, aa := decide (x.rxSz - 1 > 1), sta := false,
                events := s.events ++ [(j, .rx)], cur := some j
                slaves := fun i => if i = j then some (stored x b) else s.slaves i }, .write b true) := by
    simp only [step, hm, haa', if_true]
    rw [handler_eq { s with stat := if gc then 0x90 else 0x80, dat := b, mode := .receiver gc, aa := true } j x _
      (by simp [hj]) hx hh]
    simp [stored]
  rw [key]
  refine ⟨rfl, ⟨h.adr, h.mask, h.undef, rfl, ?_, ?_, ?_, ?_⟩, hm, rfl, rfl, rfl⟩
  · exact isSome_upd h.isSome hx _
  · intro h'; rw [hm] at h'; cases h'
  · intro g _; exact ⟨j, _, rfl, if_pos rfl, rfl, h0⟩
  · intro h'; rw [hm] at h'; cases h'

/-- A byte that is not taken, for lack of room. -/
theorem write_full (c : Config) (s : St) (h : Inv c s) (gc : Bool) (hm : s.mode = .receiver gc) (j : Nat) (x : Xfer)
    (hj : s.cur = some j) (hx : s.slaves j = some x) (hsz : ¬ x.rxSz > 1) (b : Byte) :
    (step s (.write b)).2 = .write b false ∧ Inv c (step s (.write b)).1
      ∧ (step s (.write b)).1.mode = .idle
      ∧ (∀ k, (step s (.write b)).1.events.count (k, .rx) = s.events.count (k, .rx))
      ∧ ∀ i z, s.slaves i = some z → ∃ w, (step s (.write b)).1.slaves i = some w ∧ Same z w := by
  obtain ⟨j', x', h1, h2, haa, h0⟩ := h.recv gc hm
  rw [hj] at h1; cases h1
  rw [hx] at h2; cases h2
  have haa' : s.aa = false := by rw [haa]; simpa using hsz
  have key : step s (.write b) =
      (stateHandler { s with stat := if gc then 0x98 else 0x88, mode := .idle, dat := b }, .write b false) := by
    simp [step, hm, haa']
  rw [key]
  obtain ⟨f1, f2, f3, f4⟩ := finish c s (if gc then 0x98 else 0x88) b j x h.adr h.mask h.undef h.isSome
    (by cases gc <;> simp) hj hx h0
  refine ⟨rfl, f1, f2, ?_, ?_⟩
  · intro k; show List.count _ (stateHandler _).events = _; rw [f3, count_done]
  · show ∀ i z, s.slaves i = some z → ∃ w, (stateHandler _).slaves i = some w ∧ Same z w
    rw [f4]; exact fun i z hz => slaves_same hx (show Same x { x with done := true } from Same.refl x) i z hz

theorem write_none (s : St) (hm : ∀ gc, s.mode ≠ .receiver gc) (b : Byte) : step s (.write b) = (s, .write b false) := by
  cases h : s.mode with
  | idle => simp [step, h]
  | receiver gc => exact absurd h (hm gc)
  | transmitter => simp [step, h]

/-- A byte read, and another one is wanted and there is one. -/
theorem read_more (c : Config) (s : St) (h : Inv c s) (hm : s.mode = .transmitter) (j : Nat) (x : Xfer)
    (hj : s.cur = some j) (hx : s.slaves j = some x) (hsz : x.txSz > 0) :
    (step s (.read true)).2 = .read s.dat true ∧ Inv c (step s (.read true)).1
      ∧ (step s (.read true)).1.mode = .transmitter ∧ (step s (.read true)).1.cur = some j
      ∧ (step s (.read true)).1.dat = x.txMem x.txPos
      ∧ (∀ k, (step s (.read true)).1.events.count (k, .rx) = s.events.count (k, .rx))
      ∧ (step s (.read true)).1.slaves = fun i => if i = j then some (loaded x x.addr) else s.slaves i := by
  obtain ⟨j', x', h1, h2, haa, h0⟩ := h.tra hm
  rw [hj] at h1; cases h1
  rw [hx] at h2; cases h2
  have haa' : s.aa = true := by rw [haa]; simpa using hsz
  have hh : handleXfer 0xB8 s.dat x
      = ⟨loaded x x.addr, x.txMem x.txPos, decide (x.txSz - 1 > 0), false, some .tx⟩ := by
    simp [handleXfer, loaded]
  have key : step s (.read true) =
      ({ s with stat := 0xB8, dat := x.txMem x.txPos, aa := decide (x.txSz - 1 > 0), sta := false,
                events := s.events ++ [(j, .tx)], cur := some j
                slaves := fun i => if i = j then some (loaded x x.addr) else s.slaves i }, .read s.dat true) := by
    simp only [step, hm, haa', Bool.not_true, Bool.false_eq_true, if_false, if_true]
    rw [handler_eq { s with stat := 0xB8, mode := .transmitter, aa := true } j x _ (by simp [hj]) hx hh]
    simp [loaded]
  rw [key]
  refine ⟨rfl, ⟨h.adr, h.mask, h.undef, rfl, ?_, ?_, ?_, ?_⟩, hm, rfl, rfl, fun k => count_tx _ _ _, rfl⟩
  · exact isSome_upd h.isSome hx _
  · intro h'; rw [hm] at h'; cases h'
  · intro g h'; rw [hm] at h'; cases h'
  · intro _; exact ⟨j, _, rfl, if_pos rfl, rfl, h0⟩

/-- The last byte read: not acknowledged, or there is no other. -/
theorem read_last (c : Config) (s : St) (h : Inv c s) (hm : s.mode = .transmitter) (j : Nat) (x : Xfer)
    (hj : s.cur = some j) (hx : s.slaves j = some x) (ack : Bool) (hsz : ack = false ∨ ¬ x.txSz > 0) :
    (step s (.read ack)).2 = .read s.dat ack ∧ Inv c (step s (.read ack)).1
      ∧ (step s (.read ack)).1.mode = .idle
      ∧ (∀ k, (step s (.read ack)).1.events.count (k, .rx) = s.events.count (k, .rx))
      ∧ ∀ i z, s.slaves i = some z → ∃ w, (step s (.read ack)).1.slaves i = some w ∧ Same z w := by
  obtain ⟨j', x', h1, h2, haa, h0⟩ := h.tra hm
  rw [hj] at h1; cases h1
  rw [hx] at h2; cases h2
  obtain ⟨st, hst, key⟩ : ∃ st, (st = 0xC0 ∨ st = 0xC8 ∨ st = 0x88 ∨ st = 0x98 ∨ st = 0xA0) ∧ step s (.read ack) =
      (stateHandler { s with stat := st, mode := .idle, dat := s.dat }, .read s.dat ack) := by
    cases ack with
    | false => exact ⟨0xC0, by simp, by simp [step, hm]⟩
    | true =>
      have haa' : s.aa = false := by
        rw [haa]
        rcases hsz with h | h
        · cases h
        · simpa using h
      exact ⟨0xC8, by simp, by simp [step, hm, haa']⟩
  rw [key]
  obtain ⟨f1, f2, f3, f4⟩ := finish c s st s.dat j x h.adr h.mask h.undef h.isSome hst hj hx h0
  refine ⟨rfl, f1, f2, ?_, ?_⟩
  · intro k; show List.count _ (stateHandler _).events = _; rw [f3, count_done]
  · show ∀ i z, s.slaves i = some z → ∃ w, (stateHandler _).slaves i = some w ∧ Same z w
    rw [f4]; exact fun i z hz => slaves_same hx (show Same x { x with done := true } from Same.refl x) i z hz

theorem read_none (s : St) (hm : s.mode ≠ .transmitter) (ack : Bool) : step s (.read ack) = (s, .read 0xff#8 ack) := by
  cases h : s.mode with
  | idle => simp [step, h]
  | receiver gc => simp [step, h]
  | transmitter => exact absurd h hm

end Verif.I2c.Slave
