import Verif.Wire.Lemmas

/-!
# C46: the search on the 1-Wire bus

`C46_every_device_once_partial` excludes the family code 0: a device with it is not reported and starts
the search again (`C46_family_zero`).
-/

namespace Verif.Wire

/-! ## Helper lemmas -/

theorem searchLoop_eq (last : Nat) (x : Rom) : ∀ k n act rom lz fam, act ≠ [] → n + k ≤ 64 →
    (∀ m, n ≤ m → rom.getLsbD m = x.getLsbD m) →
    ∃ f, searchLoop last k n act rom lz fam =
      (n + k, (walk (wantOf last x) k n act rom lz).1, (walk (wantOf last x) k n act rom lz).2, f) := by
  intro k
  induction k with
  | zero => intro n act rom lz fam _ _ _; exact ⟨fam, rfl⟩
  | succ k ih =>
    intro n act rom lz fam hne hn hag
    have hno : ¬ ((idBit act n && cmpBit act n) = true) := by
      intro h
      rw [Bool.and_eq_true] at h
      have := (bits_same hne (h.1.trans h.2.symm)).1
      rw [h.1] at this
      cases this
    unfold searchLoop walk
    rw [if_neg hno]
    dsimp only
    have hd : (if idBit act n != cmpBit act n then idBit act n
          else if n + 1 < last then rom.getLsbD n else n + 1 == last) =
        (if idBit act n != cmpBit act n then idBit act n else wantOf last x n) := by
      unfold wantOf
      rw [hag n (Nat.le_refl _)]
    rw [hd]
    have hne' := dir_ne (n := n) hne (wantOf last x n)
    obtain ⟨f, hf⟩ := ih (n + 1) _ (setBit rom n (if idBit act n != cmpBit act n then idBit act n
      else wantOf last x n)) (if idBit act n == cmpBit act n && !(if idBit act n != cmpBit act n then
        idBit act n else wantOf last x n) then n + 1 else lz)
      (if (idBit act n == cmpBit act n && !(if idBit act n != cmpBit act n then
        idBit act n else wantOf last x n)) && decide (n + 1 < 9) then n + 1 else fam) hne' (by omega)
      (fun m hm => by
        rw [setBit_get _ _ _ _ (by omega), if_neg (by omega)]
        exact hag m (by omega))
    refine ⟨f, ?_⟩
    rw [hf, show n + 1 + k = n + (k + 1) by omega]

/-- One call. -/
def call (devs : List Rom) (junk : Rom) (s : Search) : Search × Option Rom :=
  ((search devs s junk).1, if (search devs s junk).2.2 then some (search devs s junk).2.1 else none)

theorem calls_eq (devs : List Rom) (junk : Rom) : ∀ k s,
    (calls devs junk k s).2 = results (call devs junk) k s := by
  intro k
  induction k with
  | zero => intro s; rfl
  | succ k ih => intro s; simp only [calls, results, call, ih]

theorem search_walk (devs : List Rom) (hne : devs ≠ []) (s : Search) (hd : s.done = false) (junk : Rom)
    (hfam : ∀ z ∈ devs, familyCode z ≠ 0#8) :
    ∃ f, call devs junk s =
      (⟨(walk (wantOf s.last s.rom) 64 0 devs s.rom 0).1, (walk (wantOf s.last s.rom) 64 0 devs s.rom 0).2,
        f, decide ((walk (wantOf s.last s.rom) 64 0 devs s.rom 0).2 = 0)⟩,
       some (walk (wantOf s.last s.rom) 64 0 devs s.rom 0).1) := by
  obtain ⟨f, hf⟩ := searchLoop_eq s.last s.rom 64 0 devs s.rom 0 s.lastFamily hne (by omega)
    (fun _ _ => rfl)
  have hmem := (walk_after devs hne (wantOf s.last s.rom) s.rom).1.mem
  refine ⟨f, ?_⟩
  generalize walk (wantOf s.last s.rom) 64 0 devs s.rom 0 = w at *
  have hfc : (familyCode w.1 == 0#8) = false := by
    simpa using hfam w.1 hmem
  have hem : devs.isEmpty = false := by simpa using hne
  unfold call search
  rw [hd, hem, hf]
  simp only [Bool.false_eq_true, if_false]
  have : (!decide (0 + 64 + 1 < 65)) = true := by decide
  rw [this]
  simp only [if_true, Bool.not_true, Bool.false_or, hfc, Bool.false_eq_true, if_false]
  by_cases h0 : w.2 = 0
  · simp [h0]
  · simp [h0]

/-! ## The property -/

/-- C46 (partial): after a reset of the search, the first calls return every device of the bus exactly
once, and every further call reports the end of the search.  Missing: devices with the family code 0. -/
theorem C46_every_device_once_partial (devs : List Rom) (hne : devs ≠ []) (hnd : devs.Nodup)
    (hfam : ∀ z ∈ devs, familyCode z ≠ 0#8) (junk : Rom) (m : Nat) :
    ∃ found : List Rom, found.Perm devs ∧
      (calls devs junk (devs.length + m) resetSearch).2 = found.map some ++ List.replicate m none := by
  rw [calls_eq]
  have hw := walk_after devs hne (wantOf resetSearch.last resetSearch.rom) resetSearch.rom
  obtain ⟨f, hf⟩ := search_walk devs hne resetSearch rfl junk hfam
  generalize walk (wantOf resetSearch.last resetSearch.rom) 64 0 devs resetSearch.rom 0 = w at hf hw
  refine enumerate_all (call devs junk) devs hnd
    (fun s x => s.rom = x ∧ After devs x s.last ∧ s.done = decide (s.last = 0)) ?_ resetSearch w.1
    (by rw [hf]) ?_ hw.1.mem ?_ m
  · rintro s x ⟨hr, ha, hdn⟩
    by_cases h0 : s.last = 0
    · right
      rw [h0] at ha
      refine ⟨no_next ha, ?_⟩
      unfold call search
      rw [hdn, h0]
      rfl
    · left
      have hd : s.done = false := by rw [hdn]; exact decide_eq_false h0
      obtain ⟨f, hf⟩ := search_walk devs hne s hd junk hfam
      have hw := walk_after devs hne (wantOf s.last s.rom) s.rom
      rw [hf]
      generalize walk (wantOf s.last s.rom) 64 0 devs s.rom 0 = w at hw ⊢
      refine ⟨w.1, rfl, ⟨rfl, hw.1, rfl⟩, hw.1.mem, ?_⟩
      have := hw.2
      rw [hr] at this
      exact next_min ha h0 hw.1.mem this
  · rw [hf]
    exact ⟨rfl, hw.1, rfl⟩
  · refine first_min hw.1.mem (fun m hm hd => ?_)
    rw [hw.2 m hm hd]
    rfl

/-- C46: on a bus without devices every call reports the end. -/
theorem C46_no_device (junk : Rom) (s : Search) (m : Nat) :
    (calls [] junk m s).2 = List.replicate m none := by
  induction m generalizing s with
  | zero => rfl
  | succ m ih =>
    simp only [calls, List.replicate_succ]
    rw [ih]
    unfold search
    cases s.done <;> rfl

theorem byte_ext {x y : BitVec 8} (h : ∀ i, i < 8 → x.getLsbD i = y.getLsbD i) : x = y :=
  BitVec.eq_of_getLsbD_eq h

/-- C46, searching for a family: if there is a device of the family, the first call after
`OneWireTargetSearch` returns one. -/
theorem C46_target (devs : List Rom) (hfam : ∀ z ∈ devs, familyCode z ≠ 0#8) (family : BitVec 8)
    (z : Rom) (hz : z ∈ devs) (hzf : familyCode z = family) (junk : Rom) :
    ∃ x ∈ devs, familyCode x = family ∧ (call devs junk (targetSearch family)).2 = some x := by
  have hne : devs ≠ [] := fun h => by rw [h] at hz; cases hz
  obtain ⟨f, hf⟩ := search_walk devs hne (targetSearch family) rfl junk hfam
  have hw := walk_after devs hne (wantOf (targetSearch family).last (targetSearch family).rom)
    (targetSearch family).rom
  rw [hf]
  refine ⟨_, hw.1.mem, ?_, rfl⟩
  generalize (walk (wantOf (targetSearch family).last (targetSearch family).rom) 64 0 devs
    (targetSearch family).rom 0) = w at *
  have hbit : ∀ (y : Rom) i, i < 8 → (familyCode y).getLsbD i = y.getLsbD i := by
    intro y i hi
    unfold familyCode
    rw [BitVec.getLsbD_setWidth]
    simp [hi]
  have hag : ∀ n, n ≤ 8 → Agree w.1 z n := by
    intro n
    induction n with
    | zero => intro _ m hm; omega
    | succ n ih =>
      intro hn
      have ha := ih (by omega)
      refine ha.succ ?_
      apply Classical.byContradiction
      intro hne
      apply hne
      rw [hw.2 n (by omega) ⟨z, hz, ha.symm, fun h => hne h.symm⟩]
      unfold wantOf
      show (if n + 1 < 64 then (family.setWidth 64).getLsbD n else _) = _
      rw [if_pos (by omega), ← hbit z n (by omega), hzf, BitVec.getLsbD_setWidth]
      simp
      omega
  apply byte_ext
  intro i hi
  rw [hbit _ _ hi, hag 8 (Nat.le_refl _) i hi, ← hbit z i hi, hzf]

/-! ## Finding -/

/-- C46 (finding): a device whose family code is 0 (a code that is not assigned, but also what a wrong
bit on the wire can produce) is reported as found without storing its address, and the search begins
again: with this device alone on the bus it never ends. -/
theorem C46_family_zero (junk : Rom) (m : Nat) :
    (calls [0xa500000000000100#64] junk m resetSearch).2 = List.replicate m (some junk) := by
  have key : ∀ s : Search, s.last = 0 → s.done = false →
      (search [0xa500000000000100#64] s junk).1.last = 0 ∧
      (search [0xa500000000000100#64] s junk).1.done = false ∧
      (search [0xa500000000000100#64] s junk).2 = (junk, true) := by
    intro s h1 h2
    obtain ⟨f, hf⟩ := searchLoop_eq s.last s.rom 64 0 [0xa500000000000100#64] s.rom 0 s.lastFamily
      (by decide) (by omega) (fun _ _ => rfl)
    have hmem := (walk_after [0xa500000000000100#64] (by decide) (wantOf s.last s.rom) s.rom).1.mem
    rw [List.mem_singleton] at hmem
    unfold search
    rw [h2, hf]
    have hfc : (familyCode 0xa500000000000100#64 == 0#8) = true := by decide
    simp [hmem, hfc]
  have gen : ∀ m (s : Search), s.last = 0 → s.done = false →
      (calls [0xa500000000000100#64] junk m s).2 = List.replicate m (some junk) := by
    intro m
    induction m with
    | zero => intro s _ _; rfl
    | succ m ih =>
      intro s h1 h2
      obtain ⟨k1, k2, k3⟩ := key s h1 h2
      simp only [calls, List.replicate_succ, k3]
      rw [ih _ k1 k2]
      rfl
  exact gen m resetSearch rfl rfl

/-! ## The hypotheses are met -/

/-- Two DS18B20 and a DS18S20. -/
def exDevs : List Rom := [0x2100000102030428#64, 0x7500000102030428#64, 0x3300000000000110#64]

theorem exDevs_ne : exDevs ≠ [] := List.cons_ne_nil _ _
theorem exDevs_nodup : exDevs.Nodup := by unfold exDevs; simp
theorem exDevs_family : ∀ z ∈ exDevs, familyCode z ≠ 0#8 := by unfold exDevs; simp [familyCode]

example (junk : Rom) (m : Nat) : ∃ found : List Rom, found.Perm exDevs ∧
    (calls exDevs junk (exDevs.length + m) resetSearch).2 = found.map some ++ List.replicate m none :=
  C46_every_device_once_partial exDevs exDevs_ne exDevs_nodup exDevs_family junk m

example : (calls exDevs 0#64 5 resetSearch).2 =
    [some 0x3300000000000110#64, some 0x2100000102030428#64, some 0x7500000102030428#64, none, none] := by
  decide +kernel

example (junk : Rom) : ∃ x ∈ exDevs, familyCode x = 0x28#8 ∧
    (call exDevs junk (targetSearch 0x28#8)).2 = some x :=
  C46_target exDevs exDevs_family 0x28#8 0x2100000102030428#64 List.mem_cons_self rfl junk

end Verif.Wire
