import Verif.Wire.Props46

/-!
# C50: the search of the DS2482 bridge

The bridge counts the bits from 0 and uses 0 also for "no parting".  The first search therefore takes the
direction 1 at the lowest bit of the family code if the devices differ in it, and nobody goes back there:
`C50_found_exactly` says which devices are found, `C50_missed` that the others are not, and
`C50_every_device_once_partial` is the property for devices with the same lowest bit.
-/

namespace Verif.Wire

/-! ## Specification -/

/-- The devices the bridge finds: those with the lowest bit 1 if there are both kinds, otherwise all. -/
def found50 (devs : List Rom) : List Rom :=
  if devs.any (fun z => z.getLsbD 0) ∧ devs.any (fun z => !z.getLsbD 0)
  then devs.filter (fun z => z.getLsbD 0) else devs

/-! ## Helper lemmas -/

theorem found50_sub {devs : List Rom} {z : Rom} (h : z ∈ found50 devs) : z ∈ devs := by
  unfold found50 at h
  split at h
  · exact (List.mem_filter.1 h).1
  · exact h

theorem found50_bit {devs : List Rom} {x z : Rom} (hx : x ∈ found50 devs) (hz : z ∈ devs) :
    z ∈ found50 devs ↔ z.getLsbD 0 = x.getLsbD 0 := by
  unfold found50 at *
  split at hx
  · rename_i h
    rw [if_pos h, List.mem_filter]
    rw [(List.mem_filter.1 hx).2]
    exact ⟨fun h => h.2, fun h => ⟨hz, h⟩⟩
  · rename_i h
    rw [if_neg h]
    refine ⟨fun _ => ?_, fun _ => hz⟩
    apply Classical.byContradiction
    intro hne
    apply h
    simp only [List.any_eq_true]
    cases hb : z.getLsbD 0
    · have : x.getLsbD 0 = true := by
        cases hb' : x.getLsbD 0
        · exact absurd (hb.trans hb'.symm) hne
        · rfl
      exact ⟨⟨x, hx, this⟩, z, hz, by rw [hb]; rfl⟩
    · have : x.getLsbD 0 = false := by
        cases hb' : x.getLsbD 0
        · rfl
        · exact absurd (hb.trans hb'.symm) hne
      exact ⟨⟨z, hz, hb⟩, x, hx, by rw [this]; rfl⟩

theorem found50_of_bit {devs : List Rom} {x : Rom} (hx : x ∈ devs)
    (h : Disc devs x 0 → x.getLsbD 0 = true) : x ∈ found50 devs := by
  unfold found50
  split
  · rename_i hb
    rw [List.mem_filter]
    refine ⟨hx, ?_⟩
    cases hbx : x.getLsbD 0
    · obtain ⟨z, hz, hzb⟩ := List.any_eq_true.1 hb.1
      rw [h ⟨z, hz, fun m hm => absurd hm (by omega), by rw [hbx]; simpa using hzb⟩] at hbx
      cases hbx
    · rfl
  · exact hx

theorem disc_found {devs : List Rom} {x : Rom} (hx : x ∈ found50 devs) {m : Nat} :
    Disc (found50 devs) x m ↔ Disc devs x m ∧ m ≠ 0 := by
  constructor
  · rintro ⟨z, hz, ha, hb⟩
    refine ⟨⟨z, found50_sub hz, ha, hb⟩, ?_⟩
    rintro rfl
    exact hb ((found50_bit hx (found50_sub hz)).1 hz)
  · rintro ⟨⟨z, hz, ha, hb⟩, hm⟩
    exact ⟨z, (found50_bit hx hz).2 (ha 0 (by omega)), ha, hb⟩

theorem after_found {devs : List Rom} {x : Rom} {l : Nat} (hx : x ∈ found50 devs)
    (hb : Disc devs x 0 → x.getLsbD 0 = true) (h : After devs x l) : After (found50 devs) x l ∧ l ≠ 1 := by
  refine ⟨⟨hx, fun m hm hd => h.max m hm ((disc_found hx).1 hd).1, ?_⟩, ?_⟩
  · rcases h.isLast with h0 | ⟨m, hm, hd, hf, hl⟩
    · exact Or.inl h0
    · refine Or.inr ⟨m, hm, (disc_found hx).2 ⟨hd, ?_⟩, hf, hl⟩
      rintro rfl
      rw [hb hd] at hf
      cases hf
  · intro h1
    rcases h.isLast with h0 | ⟨m, hm, hd, hf, hl⟩
    · omega
    · have : m = 0 := by omega
      subst this
      rw [hb hd] at hf
      cases hf

theorem wireLoop_eq (last : Nat) (x : Rom) : ∀ k n act rom lz, act ≠ [] → n + k ≤ 64 →
    (∀ m, n ≤ m → rom.getLsbD m = x.getLsbD m) →
    wireLoop last k n act rom (lz - 1) =
      ((walk (wantOf (last + 1) x) k n act rom lz).1, (walk (wantOf (last + 1) x) k n act rom lz).2 - 1,
        true) := by
  intro k
  induction k with
  | zero => intro n act rom lz _ _ _; rfl
  | succ k ih =>
    intro n act rom lz hne hn hag
    have hno : ¬ ((idBit act n && cmpBit act n) = true) := by
      intro h
      rw [Bool.and_eq_true] at h
      have := (bits_same hne (h.1.trans h.2.symm)).1
      rw [h.1] at this
      cases this
    unfold wireLoop walk triplet
    dsimp only
    rw [if_neg hno, if_neg hno]
    have hd : (if n < last then rom.getLsbD n else n == last) = wantOf (last + 1) x n := by
      unfold wantOf
      rw [hag n (Nat.le_refl _)]
      simp
    rw [hd]
    have hne' := dir_ne (n := n) hne (wantOf (last + 1) x n)
    have hlz : (if !idBit act n && !cmpBit act n && !(if (idBit act n != cmpBit act n) = true then
          idBit act n else wantOf (last + 1) x n) then n else lz - 1) =
        (if idBit act n == cmpBit act n && !(if (idBit act n != cmpBit act n) = true then
          idBit act n else wantOf (last + 1) x n) then n + 1 else lz) - 1 := by
      revert hno
      cases idBit act n <;> cases cmpBit act n <;> cases wantOf (last + 1) x n <;> simp
    rw [hlz, ih (n + 1) _ (setBit rom n (if (idBit act n != cmpBit act n) = true then idBit act n
      else wantOf (last + 1) x n)) _ hne' (by omega)
      (fun m hm => by
        rw [setBit_get _ _ _ _ (by omega), if_neg (by omega)]
        exact hag m (by omega))]

/-- One call. -/
def wireCall (devs : List Rom) (junk : Rom) (s : Bridge) : Bridge × Option Rom :=
  ((wireSearch devs s junk).1,
    if (wireSearch devs s junk).2.2 then some (wireSearch devs s junk).2.1 else none)

theorem wireCalls_eq (devs : List Rom) (junk : Rom) : ∀ k s,
    (wireCalls devs junk k s).2 = results (wireCall devs junk) k s := by
  intro k
  induction k with
  | zero => intro s; rfl
  | succ k ih => intro s; simp only [wireCalls, results, wireCall, ih]

theorem wireSearch_walk (devs : List Rom) (hne : devs ≠ []) (s : Bridge) (hd : s.done = false) (junk : Rom) :
    wireCall devs junk s =
      (⟨(walk (wantOf (s.last + 1) s.address) 64 0 devs s.address 0).1,
        (walk (wantOf (s.last + 1) s.address) 64 0 devs s.address 0).2 - 1,
        decide ((walk (wantOf (s.last + 1) s.address) 64 0 devs s.address 0).2 - 1 = 0)⟩,
       some (walk (wantOf (s.last + 1) s.address) 64 0 devs s.address 0).1) := by
  have hf := wireLoop_eq s.last s.address 64 0 devs s.address 0 hne (by omega) (fun _ _ => rfl)
  have hem : devs.isEmpty = false := by simpa using hne
  generalize walk (wantOf (s.last + 1) s.address) 64 0 devs s.address 0 = w at *
  unfold wireCall wireSearch
  rw [hd, hem, hf]
  by_cases h0 : w.2 - 1 = 0
  · simp [h0]
  · simp [h0]

/-! ## The property -/

/-- C50: what the bridge returns after a reset of the search: every device of `found50` exactly once,
then the end. -/
theorem C50_found_exactly (devs : List Rom) (hne : devs ≠ []) (hnd : devs.Nodup) (junk : Rom) (m : Nat) :
    ∃ found : List Rom, found.Perm (found50 devs) ∧
      (wireCalls devs junk ((found50 devs).length + m) wireResetSearch).2 =
        found.map some ++ List.replicate m none := by
  rw [wireCalls_eq]
  have hnd' : (found50 devs).Nodup := by
    unfold found50
    split
    · exact hnd.filter _
    · exact hnd
  have hw := walk_after devs hne (wantOf (wireResetSearch.last + 1) wireResetSearch.address)
    wireResetSearch.address
  have hf := wireSearch_walk devs hne wireResetSearch rfl junk
  generalize walk (wantOf (wireResetSearch.last + 1) wireResetSearch.address) 64 0 devs
    wireResetSearch.address 0 = w at hf hw
  have hb : Disc devs w.1 0 → w.1.getLsbD 0 = true := fun h => hw.2 0 (by omega) h
  have hmem := found50_of_bit hw.1.mem hb
  refine enumerate_all (wireCall devs junk) (found50 devs) hnd'
    (fun s x => s.address = x ∧ After (found50 devs) x (s.last + 1 - (if s.done then 1 else 0)) ∧
      (Disc devs x 0 → x.getLsbD 0 = true) ∧ s.done = decide (s.last = 0))
    ?_ wireResetSearch w.1 (by rw [hf]) ?_ hmem ?_ m
  · rintro s x ⟨hr, ha, hbx, hdn⟩
    by_cases h0 : s.last = 0
    · right
      rw [hdn, h0] at ha
      refine ⟨no_next ha, ?_⟩
      unfold wireCall wireSearch
      rw [hdn, h0]
      rfl
    · left
      have hd : s.done = false := by rw [hdn]; exact decide_eq_false h0
      rw [hd] at ha
      have hf := wireSearch_walk devs hne s hd junk
      have hw := walk_after devs hne (wantOf (s.last + 1) s.address) s.address
      rw [hf]
      generalize walk (wantOf (s.last + 1) s.address) 64 0 devs s.address 0 = v at hw ⊢
      have hbv : Disc devs v.1 0 → v.1.getLsbD 0 = true := by
        intro hdv
        rw [hw.2 0 (by omega) hdv]
        unfold wantOf
        rw [if_pos (by omega), hr]
        refine hbx ?_
        by_cases he : v.1.getLsbD 0 = x.getLsbD 0
        · obtain ⟨z, hz, ha, hb⟩ := hdv
          exact ⟨z, hz, fun m hm => absurd hm (by omega), by rw [← he]; exact hb⟩
        · exact ⟨v.1, hw.1.mem, fun m hm => absurd hm (by omega), he⟩
      have hmv := found50_of_bit hw.1.mem hbv
      obtain ⟨hav, hne1⟩ := after_found hmv hbv hw.1
      refine ⟨v.1, rfl, ⟨rfl, ?_, hbv, rfl⟩, hmv, ?_⟩
      · show After (found50 devs) v.1 (v.2 - 1 + 1 - (if decide (v.2 - 1 = 0) = true then 1 else 0))
        have : v.2 - 1 + 1 - (if decide (v.2 - 1 = 0) = true then 1 else 0) = v.2 := by
          by_cases h : v.2 - 1 = 0
          · simp [h]; omega
          · simp [h]; omega
        rw [this]
        exact hav
      · refine next_min ha (by simp) hmv (fun m hm hdm => ?_)
        rw [hw.2 m hm ((disc_found hmv).1 hdm).1, hr]
        rfl
  · rw [hf]
    obtain ⟨hav, hne1⟩ := after_found hmem hb hw.1
    refine ⟨rfl, ?_, hb, rfl⟩
    show After (found50 devs) w.1 (w.2 - 1 + 1 - (if decide (w.2 - 1 = 0) = true then 1 else 0))
    have : w.2 - 1 + 1 - (if decide (w.2 - 1 = 0) = true then 1 else 0) = w.2 := by
      by_cases h : w.2 - 1 = 0
      · simp [h]; omega
      · simp [h]; omega
    rw [this]
    exact hav
  · refine first_min hmem (fun m hm hd => ?_)
    obtain ⟨hd', hm0⟩ := (disc_found hmem).1 hd
    rw [hw.2 m hm hd']
    show wantOf 1 0 m = false
    unfold wantOf
    rw [if_neg (by omega)]
    simpa using hm0

/-- C50 (partial): after a reset of the search every device is returned exactly once, then the end.
Missing: devices that differ in the lowest bit of the family code. -/
theorem C50_every_device_once_partial (devs : List Rom) (hne : devs ≠ []) (hnd : devs.Nodup)
    (hsame : ∀ z ∈ devs, ∀ z' ∈ devs, z.getLsbD 0 = z'.getLsbD 0) (junk : Rom) (m : Nat) :
    ∃ found : List Rom, found.Perm devs ∧
      (wireCalls devs junk (devs.length + m) wireResetSearch).2 =
        found.map some ++ List.replicate m none := by
  have h := C50_found_exactly devs hne hnd junk m
  have he : found50 devs = devs := by
    unfold found50
    rw [if_neg]
    rintro ⟨h1, h2⟩
    obtain ⟨z, hz, hzb⟩ := List.any_eq_true.1 h1
    obtain ⟨z', hz', hzb'⟩ := List.any_eq_true.1 h2
    rw [← hsame z hz z' hz', hzb] at hzb'
    cases hzb'
  rwa [he] at h

/-! ## Finding -/

/-- C50 (finding): with devices of both kinds on the bus, a device whose family code is even is never
returned, however often the search is called. -/
theorem C50_missed (devs : List Rom) (hnd : devs.Nodup) (z z' : Rom) (hz : z ∈ devs) (hz' : z' ∈ devs)
    (hb : z.getLsbD 0 = false) (hb' : z'.getLsbD 0 = true) (junk : Rom) (k : Nat) :
    some z ∉ (wireCalls devs junk k wireResetSearch).2 := by
  have hne : devs ≠ [] := fun h => by rw [h] at hz; cases hz
  have hpre : ∀ k m, ∃ l, (wireCalls devs junk (k + m) wireResetSearch).2 =
      (wireCalls devs junk k wireResetSearch).2 ++ l := by
    have : ∀ (k m : Nat) (s : Bridge), ∃ l, (wireCalls devs junk (k + m) s).2 =
        (wireCalls devs junk k s).2 ++ l := by
      intro k m
      induction k with
      | zero => intro s; exact ⟨_, by rw [Nat.zero_add]; rfl⟩
      | succ k ih =>
        intro s
        obtain ⟨l, hl⟩ := ih (wireSearch devs s junk).1
        refine ⟨l, ?_⟩
        rw [show k + 1 + m = (k + m) + 1 by omega]
        simp only [wireCalls, hl, List.cons_append]
    exact fun k m => this k m _
  obtain ⟨found, hp, hr⟩ := C50_found_exactly devs hne hnd junk k
  intro hmem
  obtain ⟨l, hl⟩ := hpre k (found50 devs).length
  rw [Nat.add_comm] at hl
  rw [hr] at hl
  have : some z ∈ found.map some ++ List.replicate k none := by
    rw [hl]; exact List.mem_append_left _ hmem
  rw [List.mem_append] at this
  rcases this with h | h
  · obtain ⟨y, hy, hyz⟩ := List.mem_map.1 h
    rw [Option.some.inj hyz] at hy
    have := hp.mem_iff.1 hy
    unfold found50 at this
    rw [if_pos ⟨List.any_eq_true.2 ⟨z', hz', hb'⟩, List.any_eq_true.2 ⟨z, hz, by rw [hb]; rfl⟩⟩,
      List.mem_filter, hb] at this
    exact absurd this.2 (by decide)
  · exact absurd (List.eq_of_mem_replicate h) (by simp)

/-! ## The hypotheses are met -/

theorem exDevs_even : ∀ z ∈ exDevs, ∀ z' ∈ exDevs, z.getLsbD 0 = z'.getLsbD 0 := by
  unfold exDevs; simp

example (junk : Rom) (m : Nat) : ∃ found : List Rom, found.Perm exDevs ∧
    (wireCalls exDevs junk (exDevs.length + m) wireResetSearch).2 =
      found.map some ++ List.replicate m none :=
  C50_every_device_once_partial exDevs exDevs_ne exDevs_nodup exDevs_even junk m

/-- A DS18B20 and a DS2423 counter (family code 1D). -/
def exMixed : List Rom := [0x2100000102030428#64, 0x550000000000011d#64]

example (junk : Rom) (k : Nat) : some 0x2100000102030428#64 ∉ (wireCalls exMixed junk k wireResetSearch).2 :=
  C50_missed exMixed (by unfold exMixed; simp) _ 0x550000000000011d#64 List.mem_cons_self
    (List.mem_cons_of_mem _ List.mem_cons_self) rfl rfl junk k

example : (wireCalls exMixed 0#64 3 wireResetSearch).2 = [some 0x550000000000011d#64, none, none] := by
  decide +kernel

end Verif.Wire
