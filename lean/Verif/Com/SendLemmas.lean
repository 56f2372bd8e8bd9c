import Verif.Com.GroupLemmas

/-!
# Auxiliary lemmas: sending group telegrams
-/

namespace Verif.Com

open Verif.Bytes (makeWord)

/-! ## Group address of an object -/

theorem firstLoop_spec {B : Bcu} {m : Mem} {C : Config} (H : Configured B m C) (objno : Nat) : ∀ n, n ≤ C.assoc.length →
    firstLoop B m objno n (C.assocAt + 1 + (C.assoc.length - n) * 2) =
    (((C.assoc.drop (C.assoc.length - n)).find? (fun p => p.2 = objno)).map (fun p => C.groups.getD (p.1 - 1) 0#16)).getD 0#16
  | 0, _ => by
    rw [Nat.sub_zero, List.drop_length]; rfl
  | n + 1, hn => by
    unfold firstLoop
    have hlt : C.assoc.length - (n + 1) < C.assoc.length := by omega
    have ih := firstLoop_spec H objno n (by omega)
    obtain ⟨k, hk⟩ : ∃ k, C.assoc.length - (n + 1) = k := ⟨_, rfl⟩
    have hk1 : C.assoc.length - n = k + 1 := by omega
    rw [hk] at hlt ⊢
    rw [hk1] at ih
    obtain ⟨e1, e2⟩ := assocEntry_eq H k hlt
    rw [e1, e2, List.drop_eq_getElem_cons hlt]
    have ep : C.assocAt + 1 + k * 2 + 2 = C.assocAt + 1 + (k + 1) * 2 := by omega
    rw [ep]
    obtain ⟨v1, v2, v3⟩ := H.valid.assocs _ (List.getElem_mem hlt)
    by_cases ho : C.assoc[k].2 = objno
    · rw [if_neg (by simp [ho]), List.find?_cons_of_pos (by simp [ho])]
      have hc := addrCount_ge H
      rw [if_neg (by omega), addrTable_eq H]
      simp only [Option.getD_some]
      obtain ⟨g1, g2⟩ := group_eq H (C.assoc[k].1 - 1) (by omega)
      have ea : C.addrAt + 1 + C.assoc[k].1 * 2 = C.addrAt + 3 + (C.assoc[k].1 - 1) * 2 := by omega
      rw [ea, g1, g2, makeWord_word, Option.map_some, Option.getD_some, List.getD_eq_getElem?_getD,
        List.getElem?_eq_getElem (by omega)]
      rfl
    · rw [if_pos ho, List.find?_cons_of_neg (by simp [ho])]
      exact ih

theorem firstObjectAddr_eq {B : Bcu} {m : Mem} {C : Config} (H : Configured B m C) (i : Nat) :
    firstObjectAddr B m i = sendAddr C i := by
  unfold firstObjectAddr sendAddr
  rw [assocTable_eq H]
  simp only [Option.getD_some]
  rw [assocCount_eq H]
  have := firstLoop_spec H i C.assoc.length (Nat.le_refl _)
  simpa using this

/-! ## The telegrams -/

theorem type_small {t : Nat} (h : t < 6) : bytesOf t = 1 := by
  have : ∀ t < 6, bytesOf t = 1 := by decide
  exact this t h

theorem lenByte : ∀ n : Nat, n ≤ 14 → (0xe0#8 ||| (BitVec.ofInt 8 ((n : Int) + 1) &&& 0x0f#8)) = 0xe0#8 ||| b8 (n + 1) ∧
    7 + ((0xe0#8 ||| b8 (n + 1)) &&& 15#8).toNat = 8 + n := by decide +kernel

/-- The bytes of the telegram built by `sendGroupWriteTelegram`. -/
theorem groupWriteTel_bytes {B : Bcu} {m : Mem} {C : Config} (H : Configured B m C) (i : Nat) (hi : i < C.objs.length)
    (buf : Tel) (g : Word) (resp : Bool) :
    let t := groupWriteTel B m buf i g resp
    let cmd : Byte := if resp then 0x40#8 else 0x80#8
    t 0 = 0xBC#8 ∧ t 3 = BitVec.ofNat 8 (g.toNat / 256) ∧ t 4 = BitVec.ofNat 8 g.toNat ∧ t 6 = 0#8 ∧
    (C.objs[i].type < 6 → t 5 = 0xe1#8 ∧ t 7 = cmd ||| m (valueAt B C.objs[i])) ∧
    (¬ C.objs[i].type < 6 → t 5 = 0xe0#8 ||| b8 (bytesOf C.objs[i].type + 1) ∧ t 7 = cmd ∧
      ∀ k, k < bytesOf C.objs[i].type → t (8 + k) = m (valueAt B C.objs[i] + (bytesOf C.objs[i].type - 1 - k))) := by
  have hcl : controlLow = 0xBC#8 := by decide
  have hb := bytesOf_pos C.objs[i].type
  have hb2 := bytesOf_le C.objs[i].type
  by_cases ht : C.objs[i].type < 6
  · have e : telegramObjectSize B m i = 0 := by rw [telegramObjectSize_eq H i hi, if_pos ht]
    simp only [groupWriteTel, valuePtr_eq H i hi, e, hcl]
    refine ⟨rfl, rfl, rfl, rfl, fun _ => ⟨rfl, rfl⟩, fun h => absurd ht h⟩
  · have e : telegramObjectSize B m i = (bytesOf C.objs[i].type : Int) := by rw [telegramObjectSize_eq H i hi, if_neg ht]
    have ne : ¬ (bytesOf C.objs[i].type : Int) = 0 := by omega
    have hl := (lenByte _ hb2).1
    simp only [groupWriteTel, valuePtr_eq H i hi, e, hcl, ne, ne_eq, not_false_eq_true, if_true, Option.getD_some, setByte,
      revCopyOut_spec, Int.toNat_natCast]
    refine ⟨?_, ?_, ?_, ?_, fun h => absurd h ht, fun _ => ⟨?_, ?_, ?_⟩⟩
    · simp
    · simp
    · simp
    · simp
    · simp [hl]
    · simp
    · intro k hk
      rw [if_neg (by omega), if_neg (by omega), if_pos (by omega)]
      congr 2; omega

theorem range8_map {α : Type} (t : Nat → α) : (List.range 8).map t = [t 0, t 1, t 2, t 3, t 4, t 5, t 6, t 7] := rfl

theorem prepared_len {t : Tel} {n : Nat} (h : telegramSize t = 8 + n) :
    prepared t = [t 0, t 1, t 2, t 3, t 4, t 5, t 6, t 7] ++ (List.range n).map (fun k => t (8 + k)) := by
  unfold prepared
  rw [h, List.range_add, List.map_append, range8_map, List.map_map]
  rfl

/-- The value telegram is what the specification says. -/
theorem groupWriteTel_frame {B : Bcu} {m : Mem} {C : Config} (H : Configured B m C) (i : Nat) (hi : i < C.objs.length)
    (buf : Tel) (g : Word) (resp : Bool) :
    IsFrame (prepared (groupWriteTel B m buf i g resp))
      (valueBody g C.objs[i] (value B m C.objs[i]) (if resp then 0x40#8 else 0x80#8)) := by
  obtain ⟨h0, h3, h4, h6, hs, hl⟩ := groupWriteTel_bytes H i hi buf g resp
  generalize groupWriteTel B m buf i g resp = t at *
  have hb2 := bytesOf_le C.objs[i].type
  by_cases ht : C.objs[i].type < 6
  · obtain ⟨h5, h7⟩ := hs ht
    have hlen : telegramSize t = 8 + 0 := by unfold telegramSize; rw [h5]; decide
    rw [prepared_len hlen]
    unfold valueBody value be16
    rw [if_pos ht, type_small ht]
    refine ⟨by simp [h0], rfl, ?_⟩
    simp [h3, h4, h5, h6, h7]
  · obtain ⟨h5, h7, h8⟩ := hl ht
    have hlen : telegramSize t = 8 + bytesOf C.objs[i].type := by
      unfold telegramSize; rw [h5]; exact (lenByte _ hb2).2
    rw [prepared_len hlen]
    unfold valueBody value be16
    rw [if_neg ht, reverse_map_range]
    refine ⟨by simp [h0], by simp; omega, ?_⟩
    simp only [List.drop, List.cons_append, List.nil_append, h3, h4, h5, h6, h7]
    simp only [List.cons.injEq, true_and]
    apply List.map_congr_left
    intro k hk
    rw [List.mem_range] at hk
    exact h8 k hk

theorem sendGroupRead_frame (s : St) (g : Word) : IsFrame (prepared (sendGroupRead s g).1.buf) (readBody g) ∧
    (sendGroupRead s g).2 = [prepared (sendGroupRead s g).1.buf] ∧ (sendGroupRead s g).1.mem = s.mem ∧
    (sendGroupRead s g).1.next = s.next := by
  refine ⟨?_, rfl, rfl, rfl⟩
  have hlen : telegramSize (sendGroupRead s g).1.buf = 8 + 0 := by
    unfold telegramSize sendGroupRead; simp [setByte]
  rw [prepared_len hlen]
  refine ⟨?_, rfl, ?_⟩
  · simp only [sendGroupRead, setByte]; simp; decide
  · simp only [sendGroupRead, setByte, readBody, be16]; simp

theorem prepared_range (t : Tel) : prepared t = (List.range (prepared t).length).map t := by
  unfold prepared; simp

/-! ## `sendNextGroupTelegram` -/

theorem nib_low : ∀ b : BitVec 8, (b &&& 3#8 = (b &&& 0x0f#8) &&& 3#8) ∧ (b &&& 4#8 = (b &&& 0x0f#8) &&& 4#8) := by decide +kernel

theorem flagsOf_pending (m : Mem) (C : Config) (i : Nat) :
    (flagsOf m C.flagsAt i &&& 0x3#8 = 0x3#8 ↔ Pending m C i) ∧ (flagsOf m C.flagsAt i &&& 0x4#8 ≠ 0#8 ↔ WantsRead m C i) := by
  unfold flagsOf Pending WantsRead flags
  split
  · exact ⟨Iff.rfl, Iff.rfl⟩
  · rw [(nib_low _).1, (nib_low _).2]; exact ⟨Iff.rfl, Iff.rfl⟩

theorem markSent_flags (m : Mem) (C : Config) (i j : Nat) :
    flags (markSent m C.flagsAt i) C j = if j = i then (flags m C i &&& 8#8) ||| 1#8 else flags m C j := by
  have hp : ∀ (m : Mem) (p : Nat) (x y : Byte), poke (poke m p (m p &&& x)) p (poke m p (m p &&& x) p ||| y) =
      poke m p ((m p &&& x) ||| y) := by
    intro m p x y
    funext a
    unfold poke
    split <;> simp
  obtain ⟨n1, n2, n3, n4⟩ := nib_sent (m (C.flagsAt + i / 2))
  unfold markSent
  rw [hp]
  apply flags_poke
  · intro ho
    rw [if_pos ho]
    unfold flags
    rw [if_pos ho]
    exact ⟨n1, n2⟩
  · intro he
    rw [if_neg (by omega)]
    unfold flags
    rw [if_neg (by omega)]
    exact ⟨n3, n4⟩

theorem markSent_mem (m : Mem) (tab i a : Nat) (h : a ≠ tab + i / 2) : markSent m tab i a = m a := by
  unfold markSent
  rw [poke_other h, poke_other h]

theorem markSent_configured {B : Bcu} {m : Mem} {C : Config} (H : Configured B m C) (i : Nat) (hi : i < C.objs.length) :
    Configured B (markSent m C.flagsAt i) C :=
  H.frame fun a ha => markSent_mem m _ i a (fun e => ha (Or.inl (e ▸ flagByte_inFlags hi)))

theorem markSent_value {B : Bcu} {m : Mem} {C : Config} (H : Configured B m C) (i : Nat) (hi : i < C.objs.length) (o : Obj)
    (ho : o ∈ C.objs) : value B (markSent m C.flagsAt i) o = value B m o :=
  value_of_flags H (fun a ha => markSent_mem m _ i a (fun e => ha (e ▸ flagByte_inFlags hi))) o ho

/-- The object has a pending request and can send. -/
def Ready (m : Mem) (C : Config) (i : Nat) : Prop := Pending m C i ∧ CanSend C i

/-- Object `j` was sent: the telegram carries its value (or asks for it), its request is cleared, and the other writable
objects on the same group address took the value. -/
structure SendsObject (B : Bcu) (C : Config) (s s' : St) (j : Nat) (hj : j < C.objs.length) (frames : List (List Byte)) : Prop where
  frame : ∃ f, frames = [f] ∧ f = (List.range f.length).map s'.buf ∧
    (WantsRead s.mem C j → IsFrame f (readBody (sendAddr C j))) ∧
    (¬ WantsRead s.mem C j → IsFrame f (valueBody (sendAddr C j) C.objs[j] (value B s.mem C.objs[j]) 0x80#8))
  flags : flags s'.mem C j = (flags s.mem C j &&& 8#8) ||| 1#8
  value : value B s'.mem C.objs[j] = value B s.mem C.objs[j]
  takesValue : ∀ i, (hi : i < C.objs.length) → i ≠ j → ¬ WantsRead s.mem C j → Linked C (sendAddr C j) i → Writable C.objs[i] →
    Com.value B s'.mem C.objs[i] = payload C.objs[i].type s'.buf ∧ Com.flags s'.mem C i = Com.flags s.mem C i ||| 8#8
  keeps : ∀ i, (hi : i < C.objs.length) → i ≠ j → ¬ (¬ WantsRead s.mem C j ∧ Linked C (sendAddr C j) i ∧ Writable C.objs[i]) →
    Com.value B s'.mem C.objs[i] = Com.value B s.mem C.objs[i] ∧ Com.flags s'.mem C i = Com.flags s.mem C i
  keepRest : ∀ a, ¬ inData B C a → s'.mem a = s.mem a

theorem sendLoop_spec {B : Bcu} {C : Config} (S : Separate B C) (s : St) (H : Configured B s.mem C) :
    ∀ (n i : Nat), i + n = C.objs.length →
    (∃ j, ∃ hj : j < C.objs.length, i ≤ j ∧ Ready s.mem C j ∧ (∀ k, i ≤ k → k < j → ¬ Ready s.mem C k) ∧
      (sendLoop B C.flagsAt n i s).2.1 = true ∧ (sendLoop B C.flagsAt n i s).1.next = j + 1 ∧
      SendsObject B C s (sendLoop B C.flagsAt n i s).1 j hj (sendLoop B C.flagsAt n i s).2.2) ∨
    ((∀ k, i ≤ k → k < C.objs.length → ¬ Ready s.mem C k) ∧
      sendLoop B C.flagsAt n i s = ({ s with next := s.next + 1 }, false, []))
  | 0, i, hn => Or.inr ⟨fun k h1 h2 => by omega, rfl⟩
  | n + 1, i, hn => by
    have hi : i < C.objs.length := by omega
    have ih := sendLoop_spec S s H n (i + 1) (by omega)
    have hP := flagsOf_pending s.mem C i
    unfold sendLoop
    simp only
    rw [objectConfig_eq H i hi, firstObjectAddr_eq H i]
    -- skip this object
    have skip : ¬ Ready s.mem C i →
        (∃ j, ∃ hj : j < C.objs.length, i ≤ j ∧ Ready s.mem C j ∧ (∀ k, i ≤ k → k < j → ¬ Ready s.mem C k) ∧
          (sendLoop B C.flagsAt n (i + 1) s).2.1 = true ∧ (sendLoop B C.flagsAt n (i + 1) s).1.next = j + 1 ∧
          SendsObject B C s (sendLoop B C.flagsAt n (i + 1) s).1 j hj (sendLoop B C.flagsAt n (i + 1) s).2.2) ∨
        ((∀ k, i ≤ k → k < C.objs.length → ¬ Ready s.mem C k) ∧
          sendLoop B C.flagsAt n (i + 1) s = ({ s with next := s.next + 1 }, false, [])) := by
      intro hr
      rcases ih with ⟨j, hj, h1, h2, h3, h4⟩ | ⟨h1, h2⟩
      · refine Or.inl ⟨j, hj, by omega, h2, ?_, h4⟩
        intro k hk1 hk2
        by_cases e : k = i
        · exact e ▸ hr
        · exact h3 k (by omega) hk2
      · refine Or.inr ⟨?_, h2⟩
        intro k hk1 hk2
        by_cases e : k = i
        · exact e ▸ hr
        · exact h1 k (by omega) hk2
    by_cases hc : sendAddr C i = 0#16 ∨ C.objs[i].config &&& 0x04#8 = 0#8 ∨ C.objs[i].config &&& 0x40#8 = 0#8
    · rw [if_pos hc]
      apply skip
      rintro ⟨_, ⟨_, h40, h04⟩, h0⟩
      rcases hc with hc | hc | hc
      · exact h0 hc
      · exact h04 hc
      · exact h40 hc
    · rw [if_neg hc]
      have hcan : CanSend C i := ⟨⟨hi, fun c => hc (Or.inr (Or.inr c)), fun c => hc (Or.inr (Or.inl c))⟩, fun c => hc (Or.inl c)⟩
      by_cases hp : Pending s.mem C i
      · rw [if_pos (hP.1.mpr hp)]
        refine Or.inl ⟨i, hi, Nat.le_refl _, ⟨hp, hcan⟩, fun k h1 h2 => by omega, rfl, rfl, ?_⟩
        by_cases hw : WantsRead s.mem C i
        · rw [if_pos (hP.2.mpr hw)]
          obtain ⟨f1, f2, f3, f4⟩ := sendGroupRead_frame s (sendAddr C i)
          constructor
          · refine ⟨_, f2, ?_, fun _ => f1, fun h => absurd hw h⟩
            exact prepared_range _
          · simp only [f3]; rw [markSent_flags, if_pos rfl]
          · simp only [f3]; exact markSent_value H i hi _ (List.getElem_mem hi)
          · intro k hk hki hnw; exact absurd hw hnw
          · intro k hk hki _
            simp only [f3]
            rw [markSent_flags, if_neg hki]
            exact ⟨markSent_value H i hi _ (List.getElem_mem hk), rfl⟩
          · intro a ha
            simp only [f3]
            exact markSent_mem _ _ _ _ (fun e => ha (Or.inl (e ▸ flagByte_inFlags hi)))
        · rw [if_neg (fun c => hw (hP.2.mp c))]
          have f1 := groupWriteTel_frame H i hi s.buf (sendAddr C i) false
          have T := processGroupWrite_takes H S (sendAddr C i) (groupWriteTel B s.mem s.buf i (sendAddr C i) false) (some i)
          have H1 := T.configured H
          have hnot : ¬ (Linked C (sendAddr C i) i ∧ some i ≠ some i ∧ ∃ h : i < C.objs.length, Writable C.objs[i]) :=
            fun c => c.2.1 rfl
          constructor
          · refine ⟨_, rfl, ?_, fun h => absurd h hw, fun _ => f1⟩
            exact prepared_range _
          · simp only [sendGroupWrite]
            rw [markSent_flags, if_pos rfl, T.keepFlags i hi hnot]
          · simp only [sendGroupWrite]
            rw [markSent_value H1 i hi _ (List.getElem_mem hi), T.keepValue i hi hnot]
          · intro k hk hki _ hl hwr
            simp only [sendGroupWrite]
            rw [markSent_flags, if_neg hki, markSent_value H1 i hi _ (List.getElem_mem hk)]
            have hh : Linked C (sendAddr C i) k ∧ some k ≠ some i ∧ ∃ h : k < C.objs.length, Writable C.objs[k] :=
              ⟨hl, fun c => hki (Option.some.inj c), hk, hwr⟩
            exact ⟨T.value k hk hh, T.flags k hk hh⟩
          · intro k hk hki hno
            simp only [sendGroupWrite]
            rw [markSent_flags, if_neg hki, markSent_value H1 i hi _ (List.getElem_mem hk)]
            have hh : ¬ (Linked C (sendAddr C i) k ∧ some k ≠ some i ∧ ∃ h : k < C.objs.length, Writable C.objs[k]) :=
              fun c => hno ⟨hw, c.1, c.2.2.2⟩
            exact ⟨T.keepValue k hk hh, T.keepFlags k hk hh⟩
          · intro a ha
            simp only [sendGroupWrite]
            rw [markSent_mem _ C.flagsAt i a (fun e => ha (Or.inl (e ▸ flagByte_inFlags hi))), T.keepRest a ha]
      · rw [if_neg (fun c => hp (hP.1.mp c))]
        exact skip (fun c => hp c.1)

/-- One call of `sendNextGroupTelegram`. -/
theorem sendNext_spec {B : Bcu} {C : Config} (S : Separate B C) (s : St) (H : Configured B s.mem C) (h0 : 0 < C.objs.length) :
    (∃ j, ∃ hj : j < C.objs.length, s.next % C.objs.length ≤ j ∧ Ready s.mem C j ∧
      (∀ k, s.next % C.objs.length ≤ k → k < j → ¬ Ready s.mem C k) ∧
      (sendNextGroupTelegram B s).2.1 = true ∧ (sendNextGroupTelegram B s).1.next = j + 1 ∧
      SendsObject B C s (sendNextGroupTelegram B s).1 j hj (sendNextGroupTelegram B s).2.2) ∨
    ((∀ k, s.next % C.objs.length ≤ k → k < C.objs.length → ¬ Ready s.mem C k) ∧
      sendNextGroupTelegram B s = ({ s with next := s.next % C.objs.length + 1 }, false, [])) := by
  unfold sendNextGroupTelegram
  rw [flagsTable_eq H, objectCount_eq H]
  simp only
  rw [if_neg (by omega)]
  have hlt := Nat.mod_lt s.next h0
  have := sendLoop_spec S { s with next := s.next % C.objs.length } H (C.objs.length - s.next % C.objs.length) (s.next % C.objs.length) (by omega)
  rcases this with ⟨j, hj, h1, h2, h3, h4, h5, h6⟩ | ⟨h1, h2⟩
  · refine Or.inl ⟨j, hj, h1, h2, h3, h4, h5, ?_⟩
    exact ⟨h6.frame, h6.flags, h6.value, h6.takesValue, h6.keeps, h6.keepRest⟩
  · exact Or.inr ⟨h1, h2⟩

end Verif.Com
