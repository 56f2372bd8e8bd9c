import Verif.Wire.Model

/-!
# Lemmas about the 1-Wire search

One pass over the bus is a walk from the root to a leaf of the tree of ROM codes.
-/

namespace Verif.Wire

/-- The first `n` bits are the same. -/
def Agree (x y : Rom) (n : Nat) : Prop := ∀ m, m < n → x.getLsbD m = y.getLsbD m

/-- On the way to `x` the devices `act` part at bit `m`. -/
def Disc (act : List Rom) (x : Rom) (m : Nat) : Prop :=
  ∃ z ∈ act, Agree z x m ∧ z.getLsbD m ≠ x.getLsbD m

/-- `x` comes before `y` in the search: at the first different bit it has 0. -/
def Before (x y : Rom) : Prop :=
  ∃ n, n < 64 ∧ Agree x y n ∧ x.getLsbD n = false ∧ y.getLsbD n = true

theorem Agree.refl (x : Rom) (n : Nat) : Agree x x n := fun _ _ => rfl

theorem Agree.symm {x y : Rom} {n : Nat} (h : Agree x y n) : Agree y x n := fun m hm => (h m hm).symm

theorem Agree.trans {x y z : Rom} {n : Nat} (h : Agree x y n) (h' : Agree y z n) : Agree x z n :=
  fun m hm => (h m hm).trans (h' m hm)

theorem Agree.mono {x y : Rom} {n m : Nat} (h : Agree x y n) (hm : m ≤ n) : Agree x y m :=
  fun i hi => h i (by omega)

theorem Agree.succ {x y : Rom} {n : Nat} (h : Agree x y n) (hb : x.getLsbD n = y.getLsbD n) :
    Agree x y (n + 1) := fun m hm => by
  by_cases he : m = n
  · rw [he]; exact hb
  · exact h m (by omega)

theorem Agree.eq {x y : Rom} (h : Agree x y 64) : x = y :=
  BitVec.eq_of_getLsbD_eq (fun i hi => h i hi)

theorem first_diff {x y : Rom} (h : x ≠ y) : ∃ n, n < 64 ∧ Agree x y n ∧ x.getLsbD n ≠ y.getLsbD n := by
  have gen : ∀ k n, n + k = 64 → Agree x y n →
      ∃ n, n < 64 ∧ Agree x y n ∧ x.getLsbD n ≠ y.getLsbD n := by
    intro k
    induction k with
    | zero => intro n hn ha; exact absurd (Agree.eq (by rwa [show 64 = n by omega])) h
    | succ k ih =>
      intro n hn ha
      by_cases hb : x.getLsbD n = y.getLsbD n
      · exact ih (n + 1) (by omega) (ha.succ hb)
      · exact ⟨n, by omega, ha, hb⟩
  exact gen 64 0 rfl (fun m hm => absurd hm (by omega))

theorem before_total {x y : Rom} (h : x ≠ y) : Before x y ∨ Before y x := by
  obtain ⟨n, hn, ha, hb⟩ := first_diff h
  cases hx : x.getLsbD n with
  | false =>
    left
    refine ⟨n, hn, ha, hx, ?_⟩
    rw [hx] at hb
    cases hy : y.getLsbD n with
    | false => exact absurd hy.symm hb
    | true => rfl
  | true =>
    right
    refine ⟨n, hn, ha.symm, ?_, hx⟩
    rw [hx] at hb
    cases hy : y.getLsbD n with
    | false => rfl
    | true => exact absurd hy.symm hb

theorem before_irrefl (x : Rom) : ¬ Before x x := by
  rintro ⟨n, _, _, h1, h2⟩
  rw [h1] at h2
  cases h2

theorem before_trans {x y z : Rom} (h : Before x y) (h' : Before y z) : Before x z := by
  obtain ⟨n, hn, ha, h1, h2⟩ := h
  obtain ⟨m, hm, hb, h3, h4⟩ := h'
  by_cases hnm : n < m
  · exact ⟨n, hn, ha.trans (hb.mono (by omega)), h1, by rw [← hb n hnm]; exact h2⟩
  · by_cases hmn : m < n
    · exact ⟨m, hm, (ha.mono (by omega)).trans hb, by rw [ha m hmn]; exact h3, h4⟩
    · have : n = m := by omega
      subst this
      rw [h2] at h3
      cases h3

/-! ## One round -/

theorem setBit_get (x : Rom) (n m : Nat) (b : Bool) (hn : n < 64) :
    (setBit x n b).getLsbD m = if m = n then b else x.getLsbD m := by
  unfold setBit
  by_cases hm : m < 64
  · by_cases h : m = n
    · subst h
      cases b <;> simp [hm]
    · rw [if_neg h]
      cases b
      · simp [hm]
        omega
      · simp [hm]
        omega
  · rw [BitVec.getLsbD_of_ge _ _ (by omega), if_neg (by omega), BitVec.getLsbD_of_ge _ _ (by omega)]

theorem bits_differ {act : List Rom} {n : Nat} (h : idBit act n ≠ cmpBit act n) (z : Rom) (hz : z ∈ act) :
    z.getLsbD n = idBit act n := by
  unfold idBit cmpBit at *
  cases hi : act.all (fun z => z.getLsbD n) with
  | true =>
    rw [List.all_eq_true] at hi
    exact hi z hz
  | false =>
    rw [hi] at h
    have hc : act.all (fun z => !z.getLsbD n) = true := by
      cases hc : act.all (fun z => !z.getLsbD n) with
      | true => rfl
      | false => exact absurd hc.symm h
    rw [List.all_eq_true] at hc
    simpa using hc z hz

theorem bits_same {act : List Rom} {n : Nat} (hne : act ≠ []) (h : idBit act n = cmpBit act n) :
    idBit act n = false ∧ (∃ z ∈ act, z.getLsbD n = true) ∧ ∃ z ∈ act, z.getLsbD n = false := by
  have hf : idBit act n = false := by
    cases hi : idBit act n with
    | false => rfl
    | true =>
      rw [hi] at h
      obtain ⟨z, hz⟩ := List.exists_mem_of_ne_nil act hne
      have h1 := List.all_eq_true.1 hi z hz
      have h2 := List.all_eq_true.1 h.symm z hz
      simp [h1] at h2
  refine ⟨hf, ?_, ?_⟩
  · rw [hf] at h
    have := List.all_eq_false.1 h.symm
    simpa using this
  · have := List.all_eq_false.1 hf
    simpa using this

/-- One pass, abstractly: `want` says what to do where the devices part. -/
def walk (want : Nat → Bool) : Nat → Nat → List Rom → Rom → Nat → Rom × Nat
  | 0, _, _, rom, lz => (rom, lz)
  | k + 1, n, act, rom, lz =>
    let dir : Bool := if idBit act n != cmpBit act n then idBit act n else want n
    walk want k (n + 1) (writeBit act n dir) (setBit rom n dir)
      (if idBit act n == cmpBit act n && !dir then n + 1 else lz)

theorem dir_ne {act : List Rom} {n : Nat} (hne : act ≠ []) (w : Bool) :
    writeBit act n (if idBit act n != cmpBit act n then idBit act n else w) ≠ [] := by
  have key : ∃ z ∈ act, z.getLsbD n = (if idBit act n != cmpBit act n then idBit act n else w) := by
    by_cases h : idBit act n = cmpBit act n
    · obtain ⟨_, h1, h2⟩ := bits_same hne h
      rw [h]
      simp only [bne_self_eq_false, Bool.false_eq_true, if_false]
      cases w
      · exact h2
      · exact h1
    · rw [if_pos (by simpa using h)]
      obtain ⟨z, hz⟩ := List.exists_mem_of_ne_nil act hne
      exact ⟨z, hz, bits_differ h z hz⟩
  obtain ⟨z, hz, hb⟩ := key
  intro he
  have : z ∈ writeBit act n (if idBit act n != cmpBit act n then idBit act n else w) := by
    unfold writeBit
    rw [List.mem_filter]
    exact ⟨hz, by rw [hb]; simp⟩
  rw [he] at this
  cases this

/-- What a pass does: it ends at a device, and wherever devices part on the way to it, it goes where
`want` says; the second result is the number (from 1 on) of the last parting where it went to 0. -/
theorem walk_spec (want : Nat → Bool) : ∀ k n act rom lz, n + k = 64 → act ≠ [] →
    (∀ z ∈ act, Agree z rom n) →
    (walk want k n act rom lz).1 ∈ act ∧
    (∀ m, n ≤ m → m < 64 → Disc act (walk want k n act rom lz).1 m →
      (walk want k n act rom lz).1.getLsbD m = want m) ∧
    (∀ m, n ≤ m → m < 64 → Disc act (walk want k n act rom lz).1 m →
      (walk want k n act rom lz).1.getLsbD m = false → m + 1 ≤ (walk want k n act rom lz).2) ∧
    ((walk want k n act rom lz).2 = lz ∨ ∃ m, n ≤ m ∧ m < 64 ∧ Disc act (walk want k n act rom lz).1 m ∧
      (walk want k n act rom lz).1.getLsbD m = false ∧ (walk want k n act rom lz).2 = m + 1) := by
  intro k
  induction k with
  | zero =>
    intro n act rom lz hn hne hag
    obtain ⟨z, hz⟩ := List.exists_mem_of_ne_nil act hne
    have : z = rom := Agree.eq (by have := hag z hz; rwa [show n = 64 by omega] at this)
    refine ⟨this ▸ hz, ?_, ?_, Or.inl rfl⟩
    · intro m h1 h2; omega
    · intro m h1 h2; omega
  | succ k ih =>
    intro n act rom lz hn hne hag
    unfold walk
    dsimp only
    have hne' := dir_ne (n := n) hne (want n)
    generalize hdir : (if idBit act n != cmpBit act n then idBit act n else want n) = dir at *
    generalize hlz : (if idBit act n == cmpBit act n && !dir then n + 1 else lz) = lz' at *
    have hag' : ∀ z ∈ writeBit act n dir, Agree z (setBit rom n dir) (n + 1) := by
      intro z hz m hm
      unfold writeBit at hz
      rw [List.mem_filter] at hz
      rw [setBit_get _ _ _ _ (by omega)]
      by_cases he : m = n
      · rw [if_pos he, he]
        simpa using hz.2
      · rw [if_neg he]
        exact hag z hz.1 m (by omega)
    obtain ⟨i1, i2, i3, i4⟩ := ih (n + 1) (writeBit act n dir) (setBit rom n dir) lz' (by omega) hne' hag'
    generalize walk want k (n + 1) (writeBit act n dir) (setBit rom n dir) lz' = r at *
    have hsub : ∀ z, z ∈ writeBit act n dir ↔ z ∈ act ∧ z.getLsbD n = dir := by
      intro z
      unfold writeBit
      rw [List.mem_filter]
      simp
    have hr := (hsub r.1).1 i1
    -- partings after bit `n` are the same before and after the round
    have hdisc : ∀ m, n + 1 ≤ m → (Disc act r.1 m ↔ Disc (writeBit act n dir) r.1 m) := by
      intro m hm
      constructor
      · rintro ⟨z, h1, h2, h3⟩
        exact ⟨z, (hsub z).2 ⟨h1, by rw [h2 n (by omega)]; exact hr.2⟩, h2, h3⟩
      · rintro ⟨z, h1, h2, h3⟩
        exact ⟨z, ((hsub z).1 h1).1, h2, h3⟩
    -- a parting at bit `n`
    have hat : Disc act r.1 n ↔ idBit act n = cmpBit act n := by
      constructor
      · rintro ⟨z, h1, _, h3⟩
        apply Classical.byContradiction
        intro hd
        exact h3 ((bits_differ hd z h1).trans (bits_differ hd r.1 hr.1).symm)
      · intro h
        obtain ⟨_, ⟨z1, a1, b1⟩, ⟨z2, a2, b2⟩⟩ := bits_same hne h
        cases hb : r.1.getLsbD n with
        | false => exact ⟨z1, a1, (hag z1 a1).trans (hag r.1 hr.1).symm, by rw [b1, hb]; decide⟩
        | true => exact ⟨z2, a2, (hag z2 a2).trans (hag r.1 hr.1).symm, by rw [b2, hb]; decide⟩
    refine ⟨hr.1, ?_, ?_, ?_⟩
    · intro m h1 h2 h3
      by_cases he : m = n
      · subst he
        have := hat.1 h3
        rw [hr.2, ← hdir, this]
        simp
      · exact i2 m (by omega) h2 ((hdisc m (by omega)).1 h3)
    · intro m h1 h2 h3 h4
      by_cases he : m = n
      · subst he
        have hc := hat.1 h3
        have hl : lz' = m + 1 := by
          rw [← hlz, ← hr.2, h4, hc]
          simp
        rcases i4 with h | ⟨m', g1, _, _, _, g2⟩
        · rw [h, hl]; exact Nat.le_refl _
        · rw [g2]; omega
      · exact i3 m (by omega) h2 ((hdisc m (by omega)).1 h3) h4
    · rcases i4 with h | ⟨m', g1, g2, g3, g4, g5⟩
      · by_cases hz : (idBit act n == cmpBit act n && !dir) = true
        · right
          rw [Bool.and_eq_true] at hz
          refine ⟨n, Nat.le_refl _, by omega, hat.2 (by simpa using hz.1), ?_, ?_⟩
          · rw [hr.2]
            simpa using hz.2
          · rw [h, ← hlz, if_pos (by rw [Bool.and_eq_true]; exact hz)]
        · left
          rw [h, ← hlz, if_neg hz]
      · right
        exact ⟨m', by omega, g2, (hdisc m' (by omega)).2 g3, g4, g5⟩

/-! ## The order of the search -/

/-- What the search knows after it has returned `x`: the number of the last parting where it went to
0, or 0. -/
structure After (devs : List Rom) (x : Rom) (last : Nat) : Prop where
  mem : x ∈ devs
  max : ∀ m, m < 64 → Disc devs x m → x.getLsbD m = false → m + 1 ≤ last
  isLast : last = 0 ∨ ∃ m, m < 64 ∧ Disc devs x m ∧ x.getLsbD m = false ∧ last = m + 1

/-- Where to go at a parting: as before, then to 1 once, then to 0. -/
def wantOf (last : Nat) (x : Rom) (m : Nat) : Bool :=
  if m + 1 < last then x.getLsbD m else m + 1 == last

theorem walk_after (devs : List Rom) (hne : devs ≠ []) (want : Nat → Bool) (rom : Rom) :
    After devs (walk want 64 0 devs rom 0).1 (walk want 64 0 devs rom 0).2 ∧
    ∀ m, m < 64 → Disc devs (walk want 64 0 devs rom 0).1 m →
      (walk want 64 0 devs rom 0).1.getLsbD m = want m := by
  obtain ⟨h1, h2, h3, h4⟩ := walk_spec want 64 0 devs rom 0 rfl hne
    (fun z _ m hm => absurd hm (by omega))
  refine ⟨⟨h1, fun m hm hd hf => h3 m (by omega) hm hd hf, ?_⟩, fun m hm hd => h2 m (by omega) hm hd⟩
  rcases h4 with h | ⟨m, _, h⟩
  · exact Or.inl h
  · exact Or.inr ⟨m, h⟩

/-- The first device is the first in the order. -/
theorem first_min {devs : List Rom} {y : Rom} (hy : y ∈ devs)
    (hw : ∀ m, m < 64 → Disc devs y m → y.getLsbD m = false) (z : Rom) (hz : z ∈ devs) :
    z = y ∨ Before y z := by
  by_cases he : z = y
  · exact Or.inl he
  · right
    obtain ⟨j, hj, ha, hb⟩ := first_diff he
    have hf := hw j hj ⟨z, hz, ha, hb⟩
    refine ⟨j, hj, ha.symm, hf, ?_⟩
    rw [hf] at hb
    simpa using hb

/-- The next device is the next in the order. -/
theorem next_min {devs : List Rom} {x y : Rom} {last : Nat} (hx : After devs x last) (hl : last ≠ 0)
    (hy : y ∈ devs) (hw : ∀ m, m < 64 → Disc devs y m → y.getLsbD m = wantOf last x m) :
    Before x y ∧ ∀ z ∈ devs, Before x z → z = y ∨ Before y z := by
  rcases hx.isLast with h | ⟨m0, hm0, hd0, hf0, hlast⟩
  · exact absurd h hl
  have hag : ∀ n, n ≤ m0 → Agree y x n := by
    intro n
    induction n with
    | zero => intro _ m hm; omega
    | succ n ih =>
      intro hn
      have ha := ih (by omega)
      refine ha.succ ?_
      apply Classical.byContradiction
      intro hne
      have hd : Disc devs y n := ⟨x, hx.mem, ha.symm, fun h => hne h.symm⟩
      apply hne
      rw [hw n (by omega) hd]
      unfold wantOf
      rw [if_pos (by omega)]
  have hy0 : y.getLsbD m0 = true := by
    cases hb : y.getLsbD m0 with
    | true => rfl
    | false =>
      obtain ⟨z, h1, h2, h3⟩ := hd0
      have hd : Disc devs y m0 := ⟨z, h1, h2.trans (hag m0 (Nat.le_refl _)).symm, by
        rw [hb]; rw [hf0] at h3; exact h3⟩
      have := hw m0 hm0 hd
      rw [hb] at this
      unfold wantOf at this
      rw [if_neg (by omega), hlast] at this
      simp at this
  refine ⟨⟨m0, hm0, (hag m0 (Nat.le_refl _)).symm, hf0, hy0⟩, ?_⟩
  intro z hz hxz
  by_cases he : z = y
  · exact Or.inl he
  · right
    obtain ⟨j, hj, ha, hb⟩ := first_diff he
    obtain ⟨n, hn, ha', hxn, hzn⟩ := hxz
    have hnl : n + 1 ≤ last := hx.max n hn ⟨z, hz, ha'.symm, by rw [hzn, hxn]; decide⟩ hxn
    cases hyj : y.getLsbD j with
    | false =>
      refine ⟨j, hj, ha.symm, hyj, ?_⟩
      rw [hyj] at hb
      simpa using hb
    | true =>
      exfalso
      have hzj : z.getLsbD j = false := by
        rw [hyj] at hb
        simpa using hb
      have hwj := hw j hj ⟨z, hz, ha, hb⟩
      rw [hyj] at hwj
      unfold wantOf at hwj
      by_cases hjl : j + 1 < last
      · rw [if_pos hjl] at hwj
        by_cases hnj : n < j
        · have h1 := ha n hnj
          have h2 := hag m0 (Nat.le_refl _) n (by omega)
          rw [hzn, h2, hxn] at h1
          cases h1
        · by_cases hjn : j < n
          · have h1 := ha' j hjn
            rw [← hwj, hzj] at h1
            cases h1
          · have : n = j := by omega
            rw [this, ← hwj] at hxn
            cases hxn
      · rw [if_neg hjl] at hwj
        have hjm : j = m0 := by
          have : j + 1 = last := by simpa using hwj.symm
          omega
        by_cases hnj : n < j
        · have h1 := ha n hnj
          have h2 := hag m0 (Nat.le_refl _) n (by omega)
          rw [hzn, h2, hxn] at h1
          cases h1
        · have : n = j := by omega
          rw [this, hzj] at hzn
          cases hzn

/-- After the last device there is none. -/
theorem no_next {devs : List Rom} {x : Rom} (hx : After devs x 0) (z : Rom) (hz : z ∈ devs) :
    ¬ Before x z := by
  rintro ⟨n, hn, ha, h1, h2⟩
  have := hx.max n hn ⟨z, hz, ha.symm, by rw [h1, h2]; decide⟩ h1
  omega

/-! ## Calling it again and again -/

/-- The results of `k` calls. -/
def results {σ : Type} (call : σ → σ × Option Rom) : Nat → σ → List (Option Rom)
  | 0, _ => []
  | k + 1, s => (call s).2 :: results call k (call s).1

theorem results_none {σ : Type} (call : σ → σ × Option Rom) (s : σ) (h : call s = (s, none)) (m : Nat) :
    results call m s = List.replicate m none := by
  induction m with
  | zero => rfl
  | succ m ih => simp only [results, h, ih, List.replicate_succ]

open Classical in
theorem enumerate {σ : Type} (call : σ → σ × Option Rom) (devs : List Rom) (hnd : devs.Nodup)
    (Inv : σ → Rom → Prop)
    (hstep : ∀ s x, Inv s x →
      (∃ y, (call s).2 = some y ∧ Inv (call s).1 y ∧ y ∈ devs ∧ Before x y ∧
        ∀ z ∈ devs, Before x z → z = y ∨ Before y z) ∨
      ((∀ z ∈ devs, ¬ Before x z) ∧ call s = (s, none))) (m : Nat) :
    ∀ n s x, Inv s x → (devs.filter (fun z => decide (Before x z))).length = n →
      ∃ found : List Rom, found.Perm (devs.filter (fun z => decide (Before x z))) ∧
        results call (n + m) s = found.map some ++ List.replicate m none := by
  intro n
  induction n with
  | zero =>
    intro s x hi hlen
    have hnil := List.length_eq_zero_iff.1 hlen
    refine ⟨[], by rw [hnil], ?_⟩
    rcases hstep s x hi with ⟨y, _, _, hy, hxy, _⟩ | ⟨_, hc⟩
    · exfalso
      have : y ∈ devs.filter (fun z => decide (Before x z)) := by
        rw [List.mem_filter]; exact ⟨hy, by simpa using hxy⟩
      rw [hnil] at this
      cases this
    · rw [Nat.zero_add, results_none call s hc]
      rfl
  | succ n ih =>
    intro s x hi hlen
    rcases hstep s x hi with ⟨y, hr, hi', hy, hxy, hmin⟩ | ⟨hno, _⟩
    · have hperm : (devs.filter (fun z => decide (Before x z))).Perm
          (y :: devs.filter (fun z => decide (Before y z))) := by
        refine (List.perm_ext_iff_of_nodup (hnd.filter _) ?_).2 ?_
        · rw [List.nodup_cons]
          refine ⟨?_, hnd.filter _⟩
          intro h
          rw [List.mem_filter] at h
          exact before_irrefl y (by simpa using h.2)
        · intro z
          simp only [List.mem_filter, List.mem_cons, decide_eq_true_eq]
          constructor
          · rintro ⟨h1, h2⟩
            rcases hmin z h1 h2 with h | h
            · exact Or.inl h
            · exact Or.inr ⟨h1, h⟩
          · rintro (h | ⟨h1, h2⟩)
            · rw [h]; exact ⟨hy, hxy⟩
            · exact ⟨h1, before_trans hxy h2⟩
      have hlen' : (devs.filter (fun z => decide (Before y z))).length = n := by
        have := hperm.length_eq
        rw [hlen, List.length_cons] at this
        omega
      obtain ⟨found, hf, hres⟩ := ih (call s).1 y hi' hlen'
      refine ⟨y :: found, (hf.cons y).trans hperm.symm, ?_⟩
      rw [show n + 1 + m = (n + m) + 1 by omega]
      simp only [results, hr, hres, List.map_cons, List.cons_append]
    · exfalso
      obtain ⟨z, hz⟩ := List.exists_mem_of_length_pos (l := devs.filter (fun z => decide (Before x z)))
        (by omega)
      rw [List.mem_filter] at hz
      exact hno z hz.1 (by simpa using hz.2)

/-- All devices, from the start. -/
theorem enumerate_all {σ : Type} (call : σ → σ × Option Rom) (devs : List Rom) (hnd : devs.Nodup)
    (Inv : σ → Rom → Prop)
    (hstep : ∀ s x, Inv s x →
      (∃ y, (call s).2 = some y ∧ Inv (call s).1 y ∧ y ∈ devs ∧ Before x y ∧
        ∀ z ∈ devs, Before x z → z = y ∨ Before y z) ∨
      ((∀ z ∈ devs, ¬ Before x z) ∧ call s = (s, none)))
    (s : σ) (x : Rom) (hfirst : (call s).2 = some x) (hi : Inv (call s).1 x) (hx : x ∈ devs)
    (hmin : ∀ z ∈ devs, z = x ∨ Before x z) (m : Nat) :
    ∃ found : List Rom, found.Perm devs ∧
      results call (devs.length + m) s = found.map some ++ List.replicate m none := by
  classical
  have hperm : devs.Perm (x :: devs.filter (fun z => decide (Before x z))) := by
    refine (List.perm_ext_iff_of_nodup hnd ?_).2 ?_
    · rw [List.nodup_cons]
      refine ⟨?_, hnd.filter _⟩
      intro h
      rw [List.mem_filter] at h
      exact before_irrefl x (by simpa using h.2)
    · intro z
      simp only [List.mem_filter, List.mem_cons, decide_eq_true_eq]
      constructor
      · intro h
        rcases hmin z h with h' | h'
        · exact Or.inl h'
        · exact Or.inr ⟨h, h'⟩
      · rintro (h | ⟨h1, _⟩)
        · rw [h]; exact hx
        · exact h1
  obtain ⟨found, hf, hres⟩ := enumerate call devs hnd Inv hstep m _ (call s).1 x hi rfl
  refine ⟨x :: found, (hf.cons x).trans hperm.symm, ?_⟩
  have hlen := hperm.length_eq
  rw [List.length_cons] at hlen
  rw [hlen, show (List.filter (fun z => decide (Before x z)) devs).length + 1 + m =
    ((List.filter (fun z => decide (Before x z)) devs).length + m) + 1 by omega]
  simp only [results, hfirst, List.map_cons, List.cons_append]
  rw [hres]

end Verif.Wire
