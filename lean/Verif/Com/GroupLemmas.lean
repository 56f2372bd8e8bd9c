import Verif.Com.Ops
import Verif.Com.GroupSpec

/-!
# Auxiliary lemmas: group telegrams
-/

namespace Verif.Com

open Verif.Bytes (makeWord)

/-! ## Byte copies -/

theorem revCopyIn_spec (tel : Tel) (src : Nat) : ∀ (len : Nat) (m : Mem) (dest a : Nat),
    revCopyIn m tel src dest len a = if dest ≤ a ∧ a < dest + len then tel (src + (dest + len - 1 - a)) else m a
  | 0, m, dest, a => by rw [if_neg (by omega)]; rfl
  | len + 1, m, dest, a => by
    unfold revCopyIn
    rw [revCopyIn_spec tel src len]
    by_cases h : a = dest
    · subst h
      rw [if_neg (by omega), if_pos (by omega), poke_same]
      congr 1; omega
    · rw [poke_other h]
      by_cases h2 : dest + 1 ≤ a ∧ a < dest + 1 + len
      · rw [if_pos h2, if_pos (by omega)]; congr 2; omega
      · rw [if_neg h2, if_neg (by omega)]

theorem revCopyOut_spec (m : Mem) (src : Nat) : ∀ (len : Nat) (t : Tel) (dest a : Nat),
    revCopyOut t m src dest len a = if dest ≤ a ∧ a < dest + len then m (src + (dest + len - 1 - a)) else t a
  | 0, t, dest, a => by rw [if_neg (by omega)]; rfl
  | len + 1, t, dest, a => by
    unfold revCopyOut
    rw [revCopyOut_spec m src len]
    by_cases h : a = dest
    · subst h
      rw [if_neg (by omega), if_pos (by omega)]
      simp [setByte]
    · have : setByte t dest (m (src + len)) a = t a := if_neg h
      rw [this]
      by_cases h2 : dest + 1 ≤ a ∧ a < dest + 1 + len
      · rw [if_pos h2, if_pos (by omega)]; congr 2; omega
      · rw [if_neg h2, if_neg (by omega)]

theorem reverse_map_range {α : Type} (f : Nat → α) (n : Nat) :
    ((List.range n).map f).reverse = (List.range n).map (fun k => f (n - 1 - k)) := by
  apply List.ext_getElem
  · simp
  · intro i h1 h2
    simp at h1 h2
    simp [List.getElem_reverse]

/-! ## Single write -/

theorem processGroupWriteTelegram_takes {B : Bcu} {m : Mem} {C : Config} (H : Configured B m C) (S : Separate B C)
    (i : Nat) (hi : i < C.objs.length) (tel : Tel) :
    Takes B C (· = i) tel m (processGroupWriteTelegram B m i tel) := by
  unfold processGroupWriteTelegram
  rw [valuePtr_eq H i hi, telegramObjectSize_eq H i hi]
  simp only
  obtain ⟨m1, hm1⟩ : ∃ m1 : Mem, (if (if C.objs[i].type < 6 then (0 : Int) else (bytesOf C.objs[i].type : Int)) > 0 then
      revCopyIn m tel 8 (valueAt B C.objs[i]) (if C.objs[i].type < 6 then (0 : Int) else (bytesOf C.objs[i].type : Int)).toNat
      else poke m (valueAt B C.objs[i]) (tel 7 &&& 0x3f#8)) = m1 := ⟨_, rfl⟩
  rw [hm1]
  have hb := bytesOf_pos C.objs[i].type
  have hother : ∀ a, ¬ inValue B C.objs[i] a → m1 a = m a := by
    intro a ha
    unfold inValue at ha
    rw [← hm1]
    by_cases ht : C.objs[i].type < 6
    · simp only [if_pos ht]
      rw [if_neg (by omega)]
      exact poke_other (by omega)
    · simp only [if_neg ht]
      rw [if_pos (by omega), revCopyIn_spec, if_neg (by simp only [Int.toNat_natCast]; omega)]
  have hval : value B m1 C.objs[i] = payload C.objs[i].type tel := by
    unfold value payload
    rw [← hm1]
    by_cases ht : C.objs[i].type < 6
    · have h1 : bytesOf C.objs[i].type = 1 := by
        have : ∀ t < 6, bytesOf t = 1 := by decide
        exact this _ ht
      simp only [if_pos ht]
      rw [if_neg (by omega), h1]
      simp [poke]
    · simp only [if_neg ht]
      rw [if_pos (by omega), reverse_map_range]
      apply List.map_congr_left
      intro k hk
      rw [List.mem_range] at hk
      rw [revCopyIn_spec, if_pos (by simp only [Int.toNat_natCast]; omega)]
      congr 1; simp only [Int.toNat_natCast]; omega
  have H1 : Configured B m1 C := H.frame fun a ha => hother a (fun h => ha (Or.inr ⟨_, List.getElem_mem hi, h⟩))
  have hfl : ∀ j, j < C.objs.length → flags m1 C j = flags m C j := fun j hj =>
    flags_of_values H (fun a ha => hother a (ha _ (List.getElem_mem hi))) j hj
  have hv : ∀ o ∈ C.objs, value B (addObjectFlags B m1 i 0x8#8) o = value B m1 o := fun o ho =>
    value_of_flags H1 (fun a ha => addFlags_mem H1 i _ a (fun e => ha (e ▸ flagByte_inFlags hi))) o ho
  constructor
  · intro j hj e
    subst e
    rw [hv _ (List.getElem_mem hj), hval]
  · intro j hj e
    subst e
    rw [addFlags_flags H1 j _ (by decide), if_pos rfl, hfl j hj]
  · intro j hj e
    rw [hv _ (List.getElem_mem hj)]
    exact value_congr fun a ha => hother a (fun h => S i j hi hj (fun c => e c.symm) a ⟨h, ha⟩)
  · intro j hj e
    rw [addFlags_flags H1 i _ (by decide), if_neg e, hfl j hj]
  · intro a ha
    rw [addFlags_mem H1 i _ a (fun e => ha (Or.inl (e ▸ flagByte_inFlags hi)))]
    exact hother a (fun h => ha (Or.inr ⟨_, List.getElem_mem hi, h⟩))

theorem Takes.configured {B : Bcu} {C : Config} {S : Nat → Prop} {tel : Tel} {m m' : Mem} (H : Configured B m C)
    (h : Takes B C S tel m m') : Configured B m' C := H.frame h.keepRest

theorem Takes.refl {B : Bcu} {C : Config} {S : Nat → Prop} {tel : Tel} {m : Mem} (hS : ∀ i, ¬ S i) : Takes B C S tel m m :=
  ⟨fun i _ h => absurd h (hS i), fun i _ h => absurd h (hS i), fun _ _ _ => rfl, fun _ _ _ => rfl, fun _ _ => rfl⟩

theorem or8 (b : Byte) : b ||| 8#8 ||| 8#8 = b ||| 8#8 := by rw [BitVec.or_assoc]; simp

theorem Takes.trans {B : Bcu} {C : Config} {S T : Nat → Prop} {tel : Tel} {m m' m'' : Mem}
    (h : Takes B C S tel m m') (k : Takes B C T tel m' m'') : Takes B C (fun i => S i ∨ T i) tel m m'' := by
  constructor
  · intro i hi e
    by_cases ht : T i
    · exact k.value i hi ht
    · rw [k.keepValue i hi ht]; exact h.value i hi (e.resolve_right ht)
  · intro i hi e
    by_cases ht : T i
    · rw [k.flags i hi ht]
      by_cases hs : S i
      · rw [h.flags i hi hs, or8]
      · rw [h.keepFlags i hi hs]
    · rw [k.keepFlags i hi ht]; exact h.flags i hi (e.resolve_right ht)
  · intro i hi e
    rw [k.keepValue i hi (fun c => e (Or.inr c)), h.keepValue i hi (fun c => e (Or.inl c))]
  · intro i hi e
    rw [k.keepFlags i hi (fun c => e (Or.inr c)), h.keepFlags i hi (fun c => e (Or.inl c))]
  · intro a ha
    rw [k.keepRest a ha, h.keepRest a ha]

theorem Takes.congr {B : Bcu} {C : Config} {S T : Nat → Prop} {tel : Tel} {m m' : Mem} (h : Takes B C S tel m m')
    (e : ∀ i, i < C.objs.length → (S i ↔ T i)) : Takes B C T tel m m' :=
  ⟨fun i hi t => h.value i hi ((e i hi).mpr t), fun i hi t => h.flags i hi ((e i hi).mpr t),
   fun i hi t => h.keepValue i hi (fun c => t ((e i hi).mp c)), fun i hi t => h.keepFlags i hi (fun c => t ((e i hi).mp c)),
   h.keepRest⟩

/-! ## Lookup -/

theorem indexLoop_spec (m : Mem) (addr : Word) : ∀ (n i tab : Nat),
    (∀ r, indexLoop m addr n i tab = some r → i ≤ r ∧ r < i + n ∧
      (m (tab + (r - i) * 2)).toNat = addr.toNat / 256 ∧ (m (tab + (r - i) * 2 + 1)).toNat = addr.toNat % 256 ∧
      ∀ k, k < r - i → ¬ ((m (tab + k * 2)).toNat = addr.toNat / 256 ∧ (m (tab + k * 2 + 1)).toNat = addr.toNat % 256)) ∧
    (indexLoop m addr n i tab = none → ∀ k, k < n →
      ¬ ((m (tab + k * 2)).toNat = addr.toNat / 256 ∧ (m (tab + k * 2 + 1)).toNat = addr.toNat % 256))
  | 0, i, tab => by constructor <;> intro h <;> simp [indexLoop]
  | n + 1, i, tab => by
    unfold indexLoop
    by_cases hc : (m tab).toNat = addr.toNat / 256 ∧ (m (tab + 1)).toNat = addr.toNat % 256
    · rw [if_pos hc]
      constructor
      · intro r hr
        obtain rfl := Option.some.inj hr
        simp only [Nat.sub_self, Nat.zero_mul, Nat.add_zero]
        exact ⟨by omega, by omega, hc.1, hc.2, fun k hk => by omega⟩
      · intro h; exact absurd h (by simp)
    · rw [if_neg hc]
      obtain ⟨h1, h2⟩ := indexLoop_spec m addr n (i + 1) (tab + 2)
      constructor
      · intro r hr
        obtain ⟨a1, a2, a3, a4, a5⟩ := h1 r hr
        have e : tab + (r - i) * 2 = tab + 2 + (r - (i + 1)) * 2 := by omega
        rw [e]
        refine ⟨by omega, by omega, a3, a4, ?_⟩
        intro k hk
        rcases k with _ | k
        · simpa using hc
        · have e2 : tab + (k + 1) * 2 = tab + 2 + k * 2 := by omega
          rw [e2]
          exact a5 k (by omega)
      · intro hn k hk
        rcases k with _ | k
        · simpa using hc
        · have e2 : tab + (k + 1) * 2 = tab + 2 + k * 2 := by omega
          rw [e2]
          exact h2 hn k (by omega)

theorem group_match {B : Bcu} {m : Mem} {C : Config} (H : Configured B m C) (addr : Word) (k : Nat) (hk : k < C.groups.length) :
    ((m (C.addrAt + 3 + k * 2)).toNat = addr.toNat / 256 ∧ (m (C.addrAt + 3 + k * 2 + 1)).toNat = addr.toNat % 256) ↔
    C.groups[k] = addr := by
  obtain ⟨g1, g2⟩ := group_eq H k hk
  rw [g1, g2, BitVec.toNat_ofNat, BitVec.toNat_ofNat]
  have h1 := C.groups[k].isLt
  have h2 := addr.isLt
  constructor
  · rintro ⟨e1, e2⟩
    apply BitVec.eq_of_toNat_eq
    omega
  · intro e; rw [e]; omega

theorem nodup_unique {l : List Word} (h : l.Nodup) {i j : Nat} {g : Word} (hi : l[i]? = some g) (hj : l[j]? = some g) : i = j := by
  obtain ⟨hi', e1⟩ := List.getElem?_eq_some_iff.mp hi
  obtain ⟨hj', e2⟩ := List.getElem?_eq_some_iff.mp hj
  have hp := List.pairwise_iff_getElem.mp h
  rcases Nat.lt_trichotomy i j with c | c | c
  · exact absurd (e1.trans e2.symm) (hp i j hi' hj' c)
  · exact c
  · exact absurd (e2.trans e1.symm) (hp j i hj' hi' c)

/-- The index returned by the lookup is the position of the address, or one past the table. -/
theorem indexOfAddr_some {B : Bcu} {m : Mem} {C : Config} (H : Configured B m C) {addr : Word} {r : Nat}
    (h : indexOfAddr B m addr = some r) :
    1 ≤ r ∧ (C.groups[r - 1]? = some addr ∨ (r = C.groups.length + 1 ∧ addr ∉ C.groups)) := by
  unfold indexOfAddr at h
  rw [addrTable_eq H] at h
  simp only at h
  rw [addrNum_eq H] at h
  obtain ⟨h1, h2, h3, h4, h5⟩ := (indexLoop_spec m addr _ _ _).1 r h
  refine ⟨h1, ?_⟩
  by_cases hr : r - 1 < C.groups.length
  · left
    rw [List.getElem?_eq_getElem hr]
    congr 1
    exact (group_match H addr (r - 1) hr).mp ⟨h3, h4⟩
  · right
    refine ⟨by omega, ?_⟩
    intro hm
    obtain ⟨k, hk, e⟩ := List.getElem_of_mem hm
    exact h5 k (by omega) ((group_match H addr k hk).mpr e)

theorem indexOfAddr_none {B : Bcu} {m : Mem} {C : Config} (H : Configured B m C) {addr : Word}
    (h : indexOfAddr B m addr = none) : addr ∉ C.groups := by
  unfold indexOfAddr at h
  rw [addrTable_eq H] at h
  simp only at h
  rw [addrNum_eq H] at h
  have h5 := (indexLoop_spec m addr _ _ _).2 h
  intro hm
  obtain ⟨k, hk, e⟩ := List.getElem_of_mem hm
  exact h5 k (by omega) ((group_match H addr k hk).mpr e)

/-- The association entry `k` belongs to the address. -/
theorem linked_index {B : Bcu} {m : Mem} {C : Config} (H : Configured B m C) {addr : Word} {r : Nat}
    (h : indexOfAddr B m addr = some r) (p : Nat × Nat) (hp : p ∈ C.assoc) : r = p.1 ↔ C.groups[p.1 - 1]? = some addr := by
  obtain ⟨h1, h2⟩ := indexOfAddr_some H h
  obtain ⟨v1, v2, _⟩ := H.valid.assocs p hp
  constructor
  · intro e
    subst e
    rcases h2 with h2 | ⟨h2, _⟩
    · exact h2
    · omega
  · intro e
    rcases h2 with h2 | ⟨_, h2⟩
    · have := nodup_unique H.valid.distinct h2 e; omega
    · exact absurd (List.mem_of_getElem? e) h2

theorem not_linked {B : Bcu} {m : Mem} {C : Config} (H : Configured B m C) {addr : Word} (h : indexOfAddr B m addr = none)
    (i : Nat) : ¬ Linked C addr i := by
  rintro ⟨k, _, hk⟩
  exact indexOfAddr_none H h (List.mem_of_getElem? hk)

theorem and14 (b : Byte) : b &&& 0x14#8 = 0x14#8 ↔ (b &&& 0x10#8 ≠ 0#8 ∧ b &&& 0x04#8 ≠ 0#8) := by
  revert b; decide +kernel
theorem and0c (b : Byte) : b &&& 0x0c#8 = 0x0c#8 ↔ (b &&& 0x08#8 ≠ 0#8 ∧ b &&& 0x04#8 ≠ 0#8) := by
  revert b; decide +kernel

/-! ## Write to all associated objects -/

/-- Objects written by the association entries from `k` on. -/
def hitFrom (C : Config) (gapos : Nat) (trg : Option Nat) (k : Nat) (i : Nat) : Prop :=
  ∃ j, ∃ h : j < C.assoc.length, k ≤ j ∧ C.assoc[j] = (gapos, i) ∧ some i ≠ trg ∧ ∃ hi : i < C.objs.length, Writable C.objs[i]

theorem writeAssocLoop_takes {B : Bcu} {C : Config} (S : Separate B C) (tel : Tel) (trg : Option Nat) (gapos : Nat) :
    ∀ (n : Nat) (m : Mem), Configured B m C → n ≤ C.assoc.length →
    Takes B C (hitFrom C gapos trg (C.assoc.length - n)) tel m
      (writeAssocLoop B tel trg gapos n (C.assocAt + 1 + (C.assoc.length - n) * 2) m)
  | 0, m, _, _ => by
    unfold writeAssocLoop
    apply Takes.refl
    rintro i ⟨j, hj, hk, _⟩
    omega
  | n + 1, m, H, hn => by
    unfold writeAssocLoop
    have hlt : C.assoc.length - (n + 1) < C.assoc.length := by omega
    obtain ⟨k, hk⟩ : ∃ k, C.assoc.length - (n + 1) = k := ⟨_, rfl⟩
    have hk1 : C.assoc.length - n = k + 1 := by omega
    have ep : C.assocAt + 1 + k * 2 + 2 = C.assocAt + 1 + (C.assoc.length - n) * 2 := by omega
    rw [hk] at hlt ⊢
    obtain ⟨e1, e2⟩ := assocEntry_eq H k hlt
    rw [e1, e2]
    have hob : C.assoc[k].2 < C.objs.length := (H.valid.assocs _ (List.getElem_mem hlt)).2.2
    simp only
    rw [ep]
    -- entries that do not hit
    have skip : ∀ {m' : Mem}, ¬ (gapos = C.assoc[k].1 ∧ some C.assoc[k].2 ≠ trg ∧ Writable C.objs[C.assoc[k].2]) →
        Takes B C (hitFrom C gapos trg (C.assoc.length - n)) tel m m' → Takes B C (hitFrom C gapos trg k) tel m m' := by
      intro m' hno h
      apply h.congr
      intro i hi
      constructor
      · rintro ⟨j, hj, hjk, r⟩; exact ⟨j, hj, by omega, r⟩
      · rintro ⟨j, hj, hjk, hp, ht, hw⟩
        refine ⟨j, hj, ?_, hp, ht, hw⟩
        by_cases e : j = k
        · subst e
          exfalso
          apply hno
          simp only [hp]
          exact ⟨trivial, ht, hw.2⟩
        · omega
    by_cases hg : gapos ≠ C.assoc[k].1
    · rw [if_pos hg]
      exact skip (fun c => hg c.1) (writeAssocLoop_takes S tel trg gapos n m H (by omega))
    · rw [if_neg hg]
      by_cases ht : some C.assoc[k].2 = trg
      · rw [if_pos ht]
        exact skip (fun c => c.2.1 ht) (writeAssocLoop_takes S tel trg gapos n m H (by omega))
      · rw [if_neg ht, objectConfig_eq H _ hob]
        by_cases hw : Writable C.objs[C.assoc[k].2]
        · rw [if_pos ((and14 _).mpr hw)]
          have T1 := processGroupWriteTelegram_takes H S _ hob tel
          have T2 := writeAssocLoop_takes S tel trg gapos n _ (T1.configured H) (by omega)
          apply (T1.trans T2).congr
          intro i hi
          constructor
          · rintro (e | ⟨j, hj, hjk, r⟩)
            · refine ⟨k, hlt, Nat.le_refl _, ?_, ?_, ?_⟩
              · rw [e]; ext <;> simp
                have := Decidable.not_not.mp hg
                exact this.symm
              · rw [e]; exact ht
              · subst e; exact ⟨hob, hw⟩
            · exact ⟨j, hj, by omega, r⟩
          · rintro ⟨j, hj, hjk, hp, ht', hw'⟩
            by_cases e : j = k
            · subst e; left; rw [hp]
            · right; exact ⟨j, hj, by omega, hp, ht', hw'⟩
        · rw [if_neg (fun c => hw ((and14 _).mp c))]
          exact skip (fun c => hw c.2.2) (writeAssocLoop_takes S tel trg gapos n m H (by omega))

theorem processGroupWrite_takes {B : Bcu} {m : Mem} {C : Config} (H : Configured B m C) (S : Separate B C) (addr : Word)
    (tel : Tel) (trg : Option Nat) :
    Takes B C (fun i => Linked C addr i ∧ some i ≠ trg ∧ ∃ h : i < C.objs.length, Writable C.objs[i]) tel m
      (processGroupWrite B m addr tel trg) := by
  unfold processGroupWrite
  split
  · rename_i h
    apply Takes.refl
    rintro i ⟨hl, _⟩
    exact not_linked H h i hl
  · rename_i r h
    rw [assocTable_eq H]
    simp only [Option.getD_some]
    rw [assocCount_eq H]
    have T := writeAssocLoop_takes S tel trg r C.assoc.length m H (Nat.le_refl _)
    simp only [Nat.sub_self, Nat.zero_mul, Nat.add_zero] at T
    apply T.congr
    intro i hi
    constructor
    · rintro ⟨j, hj, _, hp, ht, hw⟩
      have hm := List.getElem_mem hj
      rw [hp] at hm
      exact ⟨⟨r, hm, (linked_index H h (r, i) hm).mp rfl⟩, ht, hw⟩
    · rintro ⟨⟨k, hm, hg⟩, ht, hw⟩
      have e := (linked_index H h (k, i) hm).mpr hg
      obtain ⟨j, hj, hp⟩ := List.getElem_of_mem hm
      exact ⟨j, hj, Nat.zero_le _, by rw [hp, e], ht, hw⟩

end Verif.Com
