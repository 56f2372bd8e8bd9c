import Verif.Boot.HexLemmas
import Verif.Boot.PropsFullTool

/-!
# C82: the update tool reads from a hex file what the file says
-/

namespace Verif.Boot.Hex
open Verif Verif.Boot.HexSpec

theorem content_eq {rs : List Rec} (hp : Plain (.linear 0) rs) (a : Nat) : content rs a = lastAt (flat (evs 0 rs)) a := by
  show lastAt (placed (.linear 0) rs) a = _
  rw [placed_flat rs _ hp]
  rfl

theorem lastAt_isSome (l : List (Nat × Byte)) (a : Nat) : (lastAt l a).isSome ↔ ∃ v, (a, v) ∈ l := by
  unfold lastAt
  rw [Option.isSome_map, List.find?_isSome]
  constructor
  · rintro ⟨x, hx, he⟩
    have : x.1 = a := by simpa using he
    exact ⟨x.2, by rw [← this]; exact List.mem_reverse.1 hx⟩
  · rintro ⟨v, hv⟩
    exact ⟨(a, v), List.mem_reverse.2 hv, by simp⟩

theorem compact_mem_covers {rs : List Region} {S : Nat → Prop} (h : Seen rs S) (r : Region) (hr : r ∈ compact rs) :
    0 < r.length ∧ ∀ a, r.has a → S a := by
  have hne : rs ≠ [] := by rintro rfl; cases hr
  obtain ⟨p, l, e1, e2⟩ := compact_ne hne
  rw [e2] at hr
  refine ⟨chain_pos p l (fun x hx => h.pos x ((mem_sort x rs).1 (by rw [e1]; exact hx))) r hr, fun a ha => ?_⟩
  refine (h.cov a).1 ?_
  rw [← covers_sort, e1, ← covers_chain]
  exact ⟨r, hr, ha⟩

theorem range_bound {rs : List Region} {S : Nat → Prop} (h : Seen rs S) (n : Nat) (hS : ∀ a, S a → a + 1 < n) (hn : 0 < n) :
    (fullRange (compact rs)).length < n ∧ (rs ≠ [] → 0 < (fullRange (compact rs)).length) := by
  by_cases hne : rs = []
  · subst hne
    exact ⟨hn, fun h => absurd rfl h⟩
  · obtain ⟨p, l, e1, e2⟩ := compact_ne hne
    obtain ⟨m, hh⟩ := chain_head p l
    obtain ⟨q, hq⟩ : ∃ q, (chain p l).getLast? = some q := by
      cases e : (chain p l).getLast? with
      | none => rw [List.getLast?_eq_none_iff] at e; exact absurd e (chain_ne p l)
      | some q => exact ⟨q, rfl⟩
    have hqm : q ∈ compact rs := by rw [e2]; exact List.mem_of_getLast? hq
    obtain ⟨g1, g2⟩ := compact_mem_covers h q hqm
    have := hS _ (g2 (q.start + q.length - 1) ⟨by omega, by omega⟩)
    have es : fullRange (compact rs) = ⟨p.start, q.start + q.length - p.start⟩ := by
      rw [e2]; unfold fullRange; rw [hh, hq]
    have hge : p.start ≤ q.start := chain_start p l p.start (fun r hr => by
      have hs := sorted_sort rs
      rw [e1] at hs
      rcases List.mem_cons.1 hr with rfl | hr
      · exact Nat.le_refl _
      · exact (List.pairwise_cons.1 hs).1 r hr) q (List.mem_of_getLast? hq)
    rw [es]
    dsimp only
    exact ⟨by omega, fun _ => by omega⟩

/-- **C82 (part).** A file that consists of lines for records, the last one the end of file record, without empty data records and wrapping
addresses, is accepted. The image starts at the least address the file gives a byte for, and each of its bytes is the last one the file gives for
its address, or 0xff if there is none. -/
theorem C82_image {dig : Nat → Option Nat} (hd : Java dig) (text : List Nat) (rs : List Rec) (hl : Lines (lines text) (rs ++ [.eof]))
    (hne : ∀ r ∈ rs, r ≠ .eof) (hsh : ∀ r ∈ rs, r.Short) (hp : Plain (.linear 0) rs)
    (hsmall : ∀ a, (content rs a).isSome → a + 1 < 2 ^ 31) :
    ∃ start image, readFromHex dig text = some (start, image) ∧
      (∀ a, (content rs a).isSome → start ≤ a ∧ image ≠ []) ∧ (image ≠ [] → (content rs start).isSome) ∧
      ∀ i, i < image.length → image[i]? = some ((content rs (start + i)).getD 0xff#8) := by
  have hev := parse_lines hd hl hne hsh
  have hnon := evs_nonempty rs (.linear 0) 0 hp
  have hseen : Seen (regionsOf (evs 0 rs) []) (fun a => ∃ v, (a, v) ∈ flat (evs 0 rs)) := by
    have := seen_events (evs 0 rs) hnon [] (fun _ => False) ⟨fun a => by simp [covers], fun r hr => by cases hr⟩
    exact ⟨fun a => (this.cov a).trans ⟨fun h => h.resolve_left id, Or.inr⟩, this.pos⟩
  have hcs : ∀ a, (content rs a).isSome ↔ ∃ v, (a, v) ∈ flat (evs 0 rs) := fun a => by rw [content_eq hp, lastAt_isSome]
  generalize hout : fullRange (compact (regionsOf (evs 0 rs) [])) = out
  have hb := range_bound hseen (2 ^ 31) (fun a ha => hsmall a ((hcs a).2 ha)) (by decide)
  rw [hout] at hb
  have hread : readFromHex dig text = some (out.start, (evs 0 rs).foldl (fun b e => writeData out b e.1 e.2) (List.replicate out.length 0xff#8)) := by
    unfold readFromHex
    rw [hev]
    show (if (fullRange (compact (regionsOf (evs 0 rs) []))).length < 2 ^ 31 then _ else none) = _
    rw [show fullRange (compact (List.foldl (fun rs e => addRegion rs e.1 e.2.length) [] (evs 0 rs))) = out from hout]
    rw [show fullRange (compact (regionsOf (evs 0 rs) [])) = out from hout]
    rw [if_pos hb.1]
  by_cases he : evs 0 rs = []
  · refine ⟨out.start, _, hread, fun a ha => ?_, fun h => ?_, fun i hi => ?_⟩
    · obtain ⟨v, hv⟩ := (hcs a).1 ha
      rw [he] at hv
      cases hv
    · rw [he] at hout h
      have : out = ⟨0, 0⟩ := hout.symm
      rw [this] at h
      exact absurd rfl h
    · rw [he] at hout hi
      have : out = ⟨0, 0⟩ := hout.symm
      rw [this] at hi
      exact absurd hi (Nat.not_lt_zero _)
  · have hrne := regionsOf_ne (evs 0 rs) [] (Or.inl he)
    obtain ⟨s1, s2⟩ := range_start hseen hrne
    rw [hout] at s1 s2
    have hge : ∀ e ∈ evs 0 rs, out.start ≤ e.1 := by
      intro e hm
      have hlen := List.length_pos_iff.mpr (hnon e hm)
      exact s2 e.1 ((mem_flat _ _).2 ⟨e, hm, Nat.le_refl _, by omega⟩)
    obtain ⟨w1, w2⟩ := write_events out (evs 0 rs) (List.replicate out.length 0xff#8) (List.length_replicate) hge
    have hpos := hb.2 hrne
    refine ⟨out.start, _, hread, fun a ha => ⟨s2 a ((hcs a).1 ha), ?_⟩, fun _ => (hcs _).2 s1, fun i hi => ?_⟩
    · rw [← List.length_pos_iff, w1]
      exact hpos
    · rw [w1] at hi
      rw [w2 i hi, content_eq hp, List.getElem?_replicate, if_pos hi]
      cases lastAt (flat (evs 0 rs)) (out.start + i) <;> rfl

/-- **C82 (partial: the file gives no byte twice; no empty data records, no wrapping, segment bases without common bits with offsets).** The
image reaches from the least to the greatest address the file gives a byte for; the bytes are those the file gives, and 0xff between them. -/
theorem C82_hex_file_partial {dig : Nat → Option Nat} (hd : Java dig) (text : List Nat) (rs : List Rec) (hl : Lines (lines text) (rs ++ [.eof]))
    (hne : ∀ r ∈ rs, r ≠ .eof) (hsh : ∀ r ∈ rs, r.Short) (hp : Plain (.linear 0) rs)
    (hsmall : ∀ a, (content rs a).isSome → a + 1 < 2 ^ 31) (honce : ((placed (.linear 0) rs).map (·.1)).Nodup) :
    ∃ start image, readFromHex dig text = some (start, image) ∧
      (∀ a, (content rs a).isSome → start ≤ a ∧ a < start + image.length) ∧
      (image ≠ [] → (content rs start).isSome ∧ (content rs (start + image.length - 1)).isSome) ∧
      ∀ i, i < image.length → image[i]? = some ((content rs (start + i)).getD 0xff#8) := by
  obtain ⟨start, image, h1, h2, h3, h4⟩ := C82_image hd text rs hl hne hsh hp hsmall
  have hev := parse_lines hd hl hne hsh
  have hnon := evs_nonempty rs (.linear 0) 0 hp
  have hseen0 : Seen [] (fun _ => False) := ⟨fun a => by simp [covers], fun r hr => by cases hr⟩
  have hseen : Seen (regionsOf (evs 0 rs) []) (fun a => ∃ v, (a, v) ∈ flat (evs 0 rs)) := by
    have := seen_events (evs 0 rs) hnon [] (fun _ => False) hseen0
    exact ⟨fun a => (this.cov a).trans ⟨fun h => h.resolve_left id, Or.inr⟩, this.pos⟩
  have hcs : ∀ a, (content rs a).isSome ↔ ∃ v, (a, v) ∈ flat (evs 0 rs) := fun a => by rw [content_eq hp, lastAt_isSome]
  rw [placed_flat rs _ hp] at honce
  have hap := apart_events (evs 0 rs) hnon [] (fun _ => False) hseen0 List.Pairwise.nil honce (fun a h => h.elim)
  by_cases he : evs 0 rs = []
  · have hno : ∀ a, ¬(content rs a).isSome := by
      intro a ha
      obtain ⟨v, hv⟩ := (hcs a).1 ha
      rw [he] at hv
      cases hv
    exact ⟨start, image, h1, fun a ha => absurd ha (hno a), fun h => absurd (h3 h) (hno _), h4⟩
  · have hrne := regionsOf_ne (evs 0 rs) [] (Or.inl he)
    obtain ⟨e1, e2, e3⟩ := range_end hseen hrne hap
    have hst : start = (fullRange (compact (regionsOf (evs 0 rs) []))).start ∧ image.length = (fullRange (compact (regionsOf (evs 0 rs) []))).length := by
      unfold readFromHex at h1
      rw [hev] at h1
      dsimp only at h1
      split at h1
      · simp only [Option.some.injEq, Prod.mk.injEq] at h1
        refine ⟨h1.1.symm, ?_⟩
        rw [← h1.2]
        obtain ⟨s1, s2⟩ := range_start hseen hrne
        exact (write_events _ (evs 0 rs) _ (List.length_replicate) (fun e hm => s2 e.1 ((mem_flat _ _).2 ⟨e, hm, Nat.le_refl _, by
          have := List.length_pos_iff.mpr (hnon e hm); omega⟩))).1
      · cases h1
    rw [← hst.1, ← hst.2] at e2 e3
    exact ⟨start, image, h1, fun a ha => ⟨(h2 a ha).1, e3 a ((hcs a).1 ha)⟩, fun h => ⟨h3 h, (hcs _).2 e2⟩, h4⟩

/-! ## What is refused -/

theorem parseInt2_readAs {dig : Nat → Option Nat} {a b : Nat} {v : Byte} (h : parseInt2 dig a b = some v) : ReadAs dig a b v := by
  unfold parseInt2 at h
  unfold ReadAs
  by_cases h1 : a < 48
  · rw [if_pos h1] at h
    by_cases h2 : a = 45
    · rw [if_pos h2] at h
      cases hb : dig b with
      | none => rw [hb] at h; cases h
      | some y => rw [hb] at h; exact Or.inr ⟨y, rfl, Or.inr ⟨h2, (Option.some.inj h).symm⟩⟩
    · rw [if_neg h2] at h
      by_cases h3 : a = 43
      · rw [if_pos h3] at h
        cases hb : dig b with
        | none => rw [hb] at h; cases h
        | some y => rw [hb] at h; exact Or.inr ⟨y, rfl, Or.inl ⟨h3, (Option.some.inj h).symm⟩⟩
      · rw [if_neg h3] at h; cases h
  · rw [if_neg h1] at h
    cases ha : dig a with
    | none => rw [ha] at h; cases h
    | some x =>
      cases hb : dig b with
      | none => rw [ha, hb] at h; cases h
      | some y => rw [ha, hb] at h; exact Or.inl ⟨x, y, by omega, rfl, rfl, (Option.some.inj h).symm⟩

theorem hexBytes_reads {dig : Nat → Option Nat} : ∀ (cs : List Nat) (bs : List Byte), hexBytes dig cs = some bs → Reads dig cs bs
  | [], bs, h => by cases h; exact Reads.nil
  | [_], bs, h => by cases h
  | a :: b :: cs, bs, h => by
    unfold hexBytes at h
    cases h1 : parseInt2 dig a b with
    | none => rw [h1] at h; cases h
    | some v =>
      cases h2 : hexBytes dig cs with
      | none => rw [h1, h2] at h; cases h
      | some vs =>
        rw [h1, h2] at h
        cases h
        exact Reads.cons (parseInt2_readAs h1) (hexBytes_reads cs vs h2)

theorem parseRecord_eof {dig : Nat → Option Nat} (l : List Nat) : parseRecord dig true l = none := rfl

theorem parseRecord_checked {dig : Nat → Option Nat} {l : List Nat} {r : Record} (h : parseRecord dig false l = some r) :
    ∃ bs, Checked dig l bs ∧ RecordType.fromInt (bs.getD 3 0#8).toNat = some r.type := by
  unfold parseRecord at h
  rw [if_neg (by decide)] at h
  cases l with
  | nil => cases h
  | cons c rest =>
    dsimp only at h
    by_cases hc : c = 58
    · rw [if_neg (fun g => g hc)] at h
      cases hb : hexBytes dig rest with
      | none => rw [hb] at h; cases h
      | some bs =>
        rw [hb] at h
        dsimp only at h
        by_cases h1 : (bs.map BitVec.toNat).sum % 256 = 0
        · rw [if_neg (fun g => g h1)] at h
          by_cases h2 : (bs.getD 0 0#8).toNat + 5 = bs.length
          · rw [if_neg (fun g => g h2)] at h
            refine ⟨bs, ⟨rest, by rw [hc], hexBytes_reads _ _ hb, h2.symm, h1⟩, ?_⟩
            cases ht : RecordType.fromInt (bs.getD 3 0#8).toNat with
            | none => rw [ht] at h; cases h
            | some t => rw [ht] at h; cases h; rfl
          · rw [if_pos h2] at h; cases h
        · rw [if_pos h1] at h; cases h
    · rw [if_pos hc] at h; cases h

theorem fromInt_one {n : Nat} (h : RecordType.fromInt n = some .eof) : n = 1 := by
  unfold RecordType.fromInt at h
  split at h <;> first | rfl | cases h

theorem fromInt_other {n : Nat} {t : RecordType} (h : RecordType.fromInt n = some t) (ht : t ≠ .eof) : n = 0 ∨ (2 ≤ n ∧ n ≤ 5) := by
  unfold RecordType.fromInt at h
  split at h <;> first | omega | (cases h; exact absurd rfl ht) | cases h

theorem processRecord_eof {s s' : St} {r : Record} (h : processRecord s r = some s') (hs : s.eof = false) : s'.eof = true ↔ r.type = .eof := by
  unfold processRecord at h
  split at h
  · cases h; rename_i q; rw [q]; simp [hs]
  · cases h; rename_i q; rw [q]; simp
  · rename_i q
    split at h
    · cases h; rw [q]; simp [hs]
    · cases h
  · rename_i q
    split at h
    · cases h; rw [q]; simp [hs]
    · cases h
  · rename_i q
    split at h
    · cases h; rw [q]; simp [hs]
    · cases h
  · rename_i q
    split at h
    · cases h; rw [q]; simp [hs]
    · cases h

theorem parseLoop_eof {dig : Nat → Option Nat} : ∀ (ls : List (List Nat)) (s s' : St), s.eof = true → parseLoop dig ls s = some s' →
    ls.filter (fun l => !l.isEmpty) = []
  | [], _, _, _, _ => rfl
  | l :: ls, s, s', hs, h => by
    unfold parseLoop at h
    cases hl : l.isEmpty with
    | true =>
      rw [hl, if_pos rfl] at h
      rw [List.filter_cons, hl]
      exact parseLoop_eof ls s s' hs h
    | false =>
      rw [hl, if_neg (by decide), hs] at h
      cases h

theorem parseLoop_checked {dig : Nat → Option Nat} : ∀ (ls : List (List Nat)) (s s' : St), s.eof = false → s'.eof = true →
    parseLoop dig ls s = some s' →
    ∃ front last, ls.filter (fun l => !l.isEmpty) = front ++ [last] ∧ (∃ bs, Checked dig last bs ∧ (bs.getD 3 0#8).toNat = 1) ∧
      ∀ l ∈ front, ∃ bs, Checked dig l bs ∧ ((bs.getD 3 0#8).toNat = 0 ∨ (2 ≤ (bs.getD 3 0#8).toNat ∧ (bs.getD 3 0#8).toNat ≤ 5))
  | [], s, s', h1, h2, h => by
    cases h
    rw [h1] at h2
    cases h2
  | l :: ls, s, s', h1, h2, h => by
    unfold parseLoop at h
    cases hl : l.isEmpty with
    | true =>
      rw [hl, if_pos rfl] at h
      rw [List.filter_cons, hl]
      exact parseLoop_checked ls s s' h1 h2 h
    | false =>
      rw [hl, if_neg (by decide), h1] at h
      cases hr : parseRecord dig false l with
      | none => rw [hr] at h; cases h
      | some r =>
        rw [hr] at h
        dsimp only at h
        cases hq : processRecord s r with
        | none => rw [hq] at h; cases h
        | some s1 =>
          rw [hq] at h
          dsimp only at h
          obtain ⟨bs, hc, ht⟩ := parseRecord_checked hr
          have he := processRecord_eof hq h1
          rw [List.filter_cons, hl]
          by_cases g : s1.eof = true
          · refine ⟨[], l, by rw [parseLoop_eof ls s1 s' g h]; rfl, ⟨bs, hc, fromInt_one (by rw [ht, he.1 g])⟩, fun l hl => by cases hl⟩
          · obtain ⟨front, last, f1, f2, f3⟩ := parseLoop_checked ls s1 s' (Bool.eq_false_iff.2 g) h2 h
            refine ⟨l :: front, last, by rw [f1]; rfl, f2, fun x hx => ?_⟩
            rcases List.mem_cons.1 hx with rfl | hx
            · exact ⟨bs, hc, fromInt_other ht (fun q => g (he.2 q))⟩
            · exact f3 x hx

/-- **C82 (part).** Nothing else is accepted: in a file that is read, every line that is not empty starts with a colon, is complete and has the right
checksum, the last one is an end of file record and no other one is. -/
theorem C82_only_complete_files (dig : Nat → Option Nat) (text : List Nat) (x : Nat × List Byte) (h : readFromHex dig text = some x) :
    ∃ front last, (lines text).filter (fun l => !l.isEmpty) = front ++ [last] ∧ (∃ bs, Checked dig last bs ∧ (bs.getD 3 0#8).toNat = 1) ∧
      ∀ l ∈ front, ∃ bs, Checked dig l bs ∧ ((bs.getD 3 0#8).toNat = 0 ∨ (2 ≤ (bs.getD 3 0#8).toNat ∧ (bs.getD 3 0#8).toNat ≤ 5)) := by
  unfold readFromHex parse at h
  cases hp : parseLoop dig (lines text) ⟨false, 0, []⟩ with
  | none => rw [hp] at h; cases h
  | some s =>
    rw [hp] at h
    dsimp only at h
    by_cases he : s.eof = true
    · exact parseLoop_checked (lines text) _ s rfl he hp
    · rw [if_neg he] at h; cases h

theorem hexBytes_one {dig : Nat → Option Nat} : ∀ (cs cs' : List Nat) (k : Nat), cs.length = cs'.length → (∀ i : Nat, i ≠ k → cs[i]? = cs'[i]?) →
    ∀ h h', hexBytes dig cs = some h → hexBytes dig cs' = some h' → h.length = h'.length ∧ ∃ j : Nat, ∀ i : Nat, i ≠ j → h[i]? = h'[i]?
  | [], [], _, _, _ => by
    intro h h' e e'
    cases e; cases e'
    exact ⟨rfl, 0, fun _ _ => rfl⟩
  | [_], [_], _, _, _ => by intro h h' e; cases e
  | a :: b :: cs, a' :: b' :: cs', k, hl, hk => by
    intro h h' e e'
    have hl' : cs.length = cs'.length := by simpa using hl
    unfold hexBytes at e e'
    cases h1 : parseInt2 dig a b with
    | none => rw [h1] at e; cases e
    | some v =>
      cases h2 : hexBytes dig cs with
      | none => rw [h1, h2] at e; cases e
      | some vs =>
        cases h1' : parseInt2 dig a' b' with
        | none => rw [h1'] at e'; cases e'
        | some v' =>
          cases h2' : hexBytes dig cs' with
          | none => rw [h1', h2'] at e'; cases e'
          | some vs' =>
            rw [h1, h2] at e
            rw [h1', h2'] at e'
            cases e; cases e'
            by_cases q : k < 2
            · have ecs : cs = cs' := by
                apply List.ext_getElem?
                intro i
                have := hk (i + 2) (by omega)
                simpa using this
              subst ecs
              rw [h2] at h2'
              cases h2'
              refine ⟨rfl, 0, fun i hi => ?_⟩
              obtain ⟨j, rfl⟩ : ∃ j, i = j + 1 := ⟨i - 1, by omega⟩
              rfl
            · have ea : a = a' := by have := hk 0 (by omega); simpa using this
              have eb : b = b' := by have := hk 1 (by omega); simpa using this
              subst ea; subst eb
              rw [h1] at h1'
              cases h1'
              obtain ⟨l1, j, hj⟩ := hexBytes_one cs cs' (k - 2) hl' (fun i hi => by
                have := hk (i + 2) (by omega)
                simpa using this) vs vs' h2 h2'
              refine ⟨by simp [l1], j + 1, fun i hi => ?_⟩
              cases i with
              | zero => rfl
              | succ i => exact hj i (by omega)

theorem sum_one : ∀ (h h' : List Byte) (j : Nat), h.length = h'.length → (∀ i : Nat, i ≠ j → h[i]? = h'[i]?) →
    (h.map BitVec.toNat).sum % 256 = (h'.map BitVec.toNat).sum % 256 → h = h'
  | [], [], _, _, _, _ => rfl
  | x :: h, x' :: h', j, hl, hj, hs => by
    have hl' : h.length = h'.length := by simpa using hl
    rw [List.map_cons, List.map_cons, List.sum_cons, List.sum_cons] at hs
    by_cases q : j = 0
    · have e : h = h' := by
        apply List.ext_getElem?
        intro i
        have := hj (i + 1) (by omega)
        simpa using this
      subst e
      have h1 := x.isLt
      have h2 := x'.isLt
      have : x = x' := BitVec.eq_of_toNat_eq (by omega)
      rw [this]
    · have e : x = x' := by have := hj 0 (by omega); simpa using this
      subst e
      rw [sum_one h h' (j - 1) hl' (fun i hi => by
        have := hj (i + 1) (by omega)
        simpa using this) (by omega)]

theorem parseRecord_one {dig : Nat → Option Nat} {l l' : List Nat} {k : Nat} {e : Bool} {r r' : Record} (hl : l.length = l'.length)
    (hk : ∀ i, i ≠ k → l[i]? = l'[i]?) (h : parseRecord dig e l = some r) (h' : parseRecord dig e l' = some r') : r = r' := by
  cases e with
  | true => cases h
  | false =>
    unfold parseRecord at h h'
    rw [if_neg (by decide)] at h h'
    cases l with
    | nil => cases h
    | cons c cs =>
      cases l' with
      | nil => cases h'
      | cons c' cs' =>
        dsimp only at h h'
        by_cases hc : c = 58
        · by_cases hc' : c' = 58
          · rw [if_neg (fun g => g hc)] at h
            rw [if_neg (fun g => g hc')] at h'
            cases hb : hexBytes dig cs with
            | none => rw [hb] at h; cases h
            | some b =>
              cases hb' : hexBytes dig cs' with
              | none => rw [hb'] at h'; cases h'
              | some b' =>
                rw [hb] at h
                rw [hb'] at h'
                dsimp only at h h'
                by_cases s : (b.map BitVec.toNat).sum % 256 = 0
                · by_cases s' : (b'.map BitVec.toNat).sum % 256 = 0
                  · have hll : cs.length = cs'.length := by simpa using hl
                    have hbb : b = b' := by
                      by_cases q : k = 0
                      · have : cs = cs' := by
                          apply List.ext_getElem?
                          intro i
                          have := hk (i + 1) (by omega)
                          simpa using this
                        rw [this, hb'] at hb
                        exact (Option.some.inj hb).symm
                      · obtain ⟨l1, j, hj⟩ := hexBytes_one cs cs' (k - 1) hll (fun i hi => by
                          have := hk (i + 1) (by omega)
                          simpa using this) b b' hb hb'
                        exact sum_one b b' j l1 hj (by rw [s, s'])
                    subst hbb
                    rw [h] at h'
                    exact Option.some.inj h'
                  · rw [if_pos s'] at h'; cases h'
                · rw [if_pos s] at h; cases h
          · rw [if_pos hc'] at h'; cases h'
        · rw [if_pos hc] at h; cases h

theorem parseLoop_append {dig : Nat → Option Nat} : ∀ (l1 l2 : List (List Nat)) (s : St),
    parseLoop dig (l1 ++ l2) s = (parseLoop dig l1 s).bind (parseLoop dig l2)
  | [], _, _ => rfl
  | l :: l1, l2, s => by
    rw [List.cons_append]
    unfold parseLoop
    split
    · exact parseLoop_append l1 l2 s
    · cases parseRecord dig s.eof l with
      | none => rfl
      | some r =>
        dsimp only
        cases processRecord s r with
        | none => rfl
        | some s1 => exact parseLoop_append l1 l2 s1

theorem one_line (dig : Nat → Option Nat) (text text' : List Nat) (before after : List (List Nat)) (l l' : List Nat) (k : Nat)
    (h : lines text = before ++ l :: after) (h' : lines text' = before ++ l' :: after) (hl : l.length = l'.length) (hk : ∀ i : Nat, i ≠ k → l[i]? = l'[i]?)
    (hr : (readFromHex dig text).isSome) : readFromHex dig text' = none ∨ readFromHex dig text' = readFromHex dig text := by
  have key : parse dig (lines text') = none ∨ parse dig (lines text') = parse dig (lines text) := by
    have hsome : (parseLoop dig (lines text) ⟨false, 0, []⟩).isSome := by
      unfold readFromHex parse at hr
      cases hp : parseLoop dig (lines text) ⟨false, 0, []⟩ with
      | none => rw [hp] at hr; cases hr
      | some s => rfl
    rw [h, parseLoop_append] at hsome
    cases hb : parseLoop dig before ⟨false, 0, []⟩ with
    | none => rw [hb] at hsome; cases hsome
    | some s =>
      rw [hb] at hsome
      have hsome : (parseLoop dig (l :: after) s).isSome := hsome
      have e1 : parseLoop dig (lines text) ⟨false, 0, []⟩ = parseLoop dig (l :: after) s := by rw [h, parseLoop_append, hb]; rfl
      have e2 : parseLoop dig (lines text') ⟨false, 0, []⟩ = parseLoop dig (l' :: after) s := by rw [h', parseLoop_append, hb]; rfl
      unfold parse
      rw [e1, e2]
      cases hle : l.isEmpty with
      | true =>
        have e : l = [] := List.isEmpty_iff.1 hle
        have e' : l' = [] := List.eq_nil_of_length_eq_zero (by rw [← hl, e]; rfl)
        rw [e, e']
        exact Or.inr rfl
      | false =>
        have hle' : l'.isEmpty = false := by
          refine Bool.eq_false_iff.2 fun g => ?_
          have e' : l' = [] := List.isEmpty_iff.1 g
          rw [e'] at hl
          have := List.eq_nil_of_length_eq_zero hl
          rw [this] at hle
          cases hle
        have u1 : parseLoop dig (l :: after) s =
            (match parseRecord dig s.eof l with
             | none => none
             | some r => match processRecord s r with
               | none => none
               | some s' => parseLoop dig after s') := by
          rw [parseLoop, hle]; rfl
        have u2 : parseLoop dig (l' :: after) s =
            (match parseRecord dig s.eof l' with
             | none => none
             | some r => match processRecord s r with
               | none => none
               | some s' => parseLoop dig after s') := by
          rw [parseLoop, hle']; rfl
        cases hp' : parseRecord dig s.eof l' with
        | none => rw [u2, hp']; exact Or.inl rfl
        | some r' =>
          cases hp : parseRecord dig s.eof l with
          | none => rw [u1, hp] at hsome; cases hsome
          | some r =>
            rw [u1, u2, hp, hp', parseRecord_one hl hk hp hp']
            exact Or.inr rfl
  unfold readFromHex
  rcases key with key | key
  · rw [key]; exact Or.inl rfl
  · rw [key]; exact Or.inr rfl

theorem linesFrom_char (acc cs : List Nat) {c : Nat} (h1 : c ≠ 10) (h2 : c ≠ 13) : linesFrom acc (c :: cs) = linesFrom (c :: acc) cs := by
  rw [linesFrom.eq_def]
  split
  · rename_i q; cases q
  · rename_i q; cases q; exact absurd rfl h2
  · rename_i q
    cases q
    rw [if_neg (fun g => g.elim h1 h2)]

theorem linesFrom_crlf (acc cs : List Nat) : linesFrom acc (13 :: 10 :: cs) = acc.reverse :: linesFrom [] cs := rfl

theorem linesFrom_break (acc cs : List Nat) {c : Nat} (h : c = 10 ∨ c = 13) (hn : ∀ r, c :: cs ≠ 13 :: 10 :: r) :
    linesFrom acc (c :: cs) = acc.reverse :: linesFrom [] cs := by
  rw [linesFrom.eq_def]
  split
  · rename_i q; cases q
  · rename_i q; exact absurd q (hn _)
  · rename_i q
    cases q
    rw [if_pos h]

theorem linesFrom_acc (post : List Nat) : ∃ l2 after, ∀ acc, acc ≠ [] → linesFrom acc post = (acc.reverse ++ l2) :: after := by
  induction post with
  | nil =>
    refine ⟨[], [], fun acc h => ?_⟩
    cases acc with
    | nil => exact absurd rfl h
    | cons a acc => rw [List.append_nil]; rfl
  | cons c cs ih =>
    by_cases h1 : c = 10 ∨ c = 13
    · by_cases h2 : ∃ r, c :: cs = 13 :: 10 :: r
      · obtain ⟨r, e⟩ := h2
        exact ⟨[], linesFrom [] r, fun acc _ => by rw [e, linesFrom_crlf, List.append_nil]⟩
      · exact ⟨[], linesFrom [] cs, fun acc _ => by rw [linesFrom_break acc cs h1 (fun r e => h2 ⟨r, e⟩), List.append_nil]⟩
    · obtain ⟨l2, after, h⟩ := ih
      exact ⟨c :: l2, after, fun acc _ => by
        rw [linesFrom_char acc cs (fun e => h1 (Or.inl e)) (fun e => h1 (Or.inr e)), h (c :: acc) (List.cons_ne_nil _ _)]
        simp⟩

theorem linesFrom_replace (post : List Nat) : ∀ (n : Nat) (pre : List Nat) (acc : List Nat), pre.length ≤ n → ∃ before l1 l2 after, ∀ x : Nat,
    x ≠ 10 → x ≠ 13 → linesFrom acc (pre ++ x :: post) = before ++ (l1 ++ x :: l2) :: after := by
  intro n
  induction n with
  | zero =>
    intro pre acc hn
    have : pre = [] := List.eq_nil_of_length_eq_zero (by omega)
    subst this
    obtain ⟨l2, after, h⟩ := linesFrom_acc post
    exact ⟨[], acc.reverse, l2, after, fun x h1 h2 => by
      rw [List.nil_append, linesFrom_char acc post h1 h2, h _ (List.cons_ne_nil _ _)]; simp⟩
  | succ n ih =>
    intro pre acc hn
    cases pre with
    | nil => exact ih [] acc (Nat.zero_le _)
    | cons c pre =>
      rw [List.length_cons] at hn
      by_cases h1 : c = 10 ∨ c = 13
      · by_cases h2 : ∃ r, c :: pre = 13 :: 10 :: r
        · obtain ⟨r, e⟩ := h2
          cases e
          rw [List.length_cons] at hn
          obtain ⟨before, l1, l2, after, h⟩ := ih r [] (by omega)
          exact ⟨acc.reverse :: before, l1, l2, after, fun x g1 g2 => by
            rw [List.cons_append, List.cons_append, linesFrom_crlf, h x g1 g2]; rfl⟩
        · obtain ⟨before, l1, l2, after, h⟩ := ih pre [] (by omega)
          refine ⟨acc.reverse :: before, l1, l2, after, fun x g1 g2 => ?_⟩
          rw [List.cons_append, linesFrom_break acc _ h1, h x g1 g2]
          · rfl
          · intro r e
            cases pre with
            | nil =>
              rw [List.nil_append, List.cons.injEq, List.cons.injEq] at e
              exact g1 e.2.1
            | cons d pre =>
              rw [List.cons_append, List.cons.injEq, List.cons.injEq] at e
              exact h2 ⟨pre, by rw [e.1, e.2.1]⟩
      · obtain ⟨before, l1, l2, after, h⟩ := ih pre (c :: acc) (by omega)
        exact ⟨before, l1, l2, after, fun x g1 g2 => by
          rw [List.cons_append, linesFrom_char acc _ (fun e => h1 (Or.inl e)) (fun e => h1 (Or.inr e)), h x g1 g2]⟩

/-- **C82 (part).** Damage: if one character of a file that is read is replaced by another one (neither of them a line break), the file is
refused, or read as before. -/
theorem C82_one_character (dig : Nat → Option Nat) (pre post : List Nat) (c c' : Nat) (hc : c ≠ 10 ∧ c ≠ 13) (hc' : c' ≠ 10 ∧ c' ≠ 13)
    (hr : (readFromHex dig (pre ++ c :: post)).isSome) :
    readFromHex dig (pre ++ c' :: post) = none ∨ readFromHex dig (pre ++ c' :: post) = readFromHex dig (pre ++ c :: post) := by
  obtain ⟨before, l1, l2, after, h⟩ := linesFrom_replace post pre.length pre [] (Nat.le_refl _)
  refine one_line dig _ _ before after (l1 ++ c :: l2) (l1 ++ c' :: l2) l1.length (h c hc.1 hc.2) (h c' hc'.1 hc'.2) (by simp) (fun i hi => ?_) hr
  by_cases q : i < l1.length
  · rw [List.getElem?_append_left q, List.getElem?_append_left q]
  · rw [List.getElem?_append_right (by omega), List.getElem?_append_right (by omega)]
    obtain ⟨j, e⟩ : ∃ j, i - l1.length = j + 1 := ⟨i - l1.length - 1, by omega⟩
    rw [e]
    rfl

/-! ## Cases -/

/-- Characters of an ASCII text, one line break (LF) after each line. -/
def ascii (ls : List (List Char)) : List Nat := ls.flatMap fun l => l.map Char.toNat ++ [10]

theorem digit_java : Java digit := by
  refine ⟨fun _ _ => rfl, fun c d h => ?_⟩
  unfold digit at h
  split at h
  · cases h; omega
  · split at h
    · cases h; omega
    · split at h
      · cases h; omega
      · cases h

/-- Two data records, the second one first in memory, with a gap of one byte, and the upper half of the address given. -/
def demoText : List Nat := ascii ["".toList, ":020000040001F9".toList, ":02700400010287".toList, ":0370000011121357".toList, ":00000001FF".toList]

def demoRecs : List Rec := [.linear 1#16, .data 0x7004#16 [1#8, 2#8], .data 0x7000#16 [0x11#8, 0x12#8, 0x13#8]]

theorem demo_lines : Lines (lines demoText) (demoRecs ++ [.eof]) := by
  have e : lines demoText = ["".toList.map Char.toNat, ":020000040001F9".toList.map Char.toNat, ":02700400010287".toList.map Char.toNat,
    ":0370000011121357".toList.map Char.toNat, ":00000001FF".toList.map Char.toNat] := by decide +kernel
  rw [e]
  refine Lines.empty (Lines.cons ⟨_, rfl, ?_⟩ (Lines.cons ⟨_, rfl, ?_⟩ (Lines.cons ⟨_, rfl, ?_⟩ (Lines.cons ⟨_, rfl, ?_⟩ Lines.nil))))
  · exact Writes.cons (x := 0) (y := 2) (by decide) (by decide) <| Writes.cons (x := 0) (y := 0) (by decide) (by decide) <|
      Writes.cons (x := 0) (y := 0) (by decide) (by decide) <| Writes.cons (x := 0) (y := 4) (by decide) (by decide) <|
      Writes.cons (x := 0) (y := 0) (by decide) (by decide) <| Writes.cons (x := 0) (y := 1) (by decide) (by decide) <|
      Writes.cons (x := 15) (y := 9) (by decide) (by decide) Writes.nil
  · exact Writes.cons (x := 0) (y := 2) (by decide) (by decide) <| Writes.cons (x := 7) (y := 0) (by decide) (by decide) <|
      Writes.cons (x := 0) (y := 4) (by decide) (by decide) <| Writes.cons (x := 0) (y := 0) (by decide) (by decide) <|
      Writes.cons (x := 0) (y := 1) (by decide) (by decide) <| Writes.cons (x := 0) (y := 2) (by decide) (by decide) <|
      Writes.cons (x := 8) (y := 7) (by decide) (by decide) Writes.nil
  · exact Writes.cons (x := 0) (y := 3) (by decide) (by decide) <| Writes.cons (x := 7) (y := 0) (by decide) (by decide) <|
      Writes.cons (x := 0) (y := 0) (by decide) (by decide) <| Writes.cons (x := 0) (y := 0) (by decide) (by decide) <|
      Writes.cons (x := 1) (y := 1) (by decide) (by decide) <| Writes.cons (x := 1) (y := 2) (by decide) (by decide) <|
      Writes.cons (x := 1) (y := 3) (by decide) (by decide) <| Writes.cons (x := 5) (y := 7) (by decide) (by decide) Writes.nil
  · exact Writes.cons (x := 0) (y := 0) (by decide) (by decide) <| Writes.cons (x := 0) (y := 0) (by decide) (by decide) <|
      Writes.cons (x := 0) (y := 0) (by decide) (by decide) <| Writes.cons (x := 0) (y := 1) (by decide) (by decide) <|
      Writes.cons (x := 15) (y := 15) (by decide) (by decide) Writes.nil

theorem demo_placed : placed (.linear 0) demoRecs =
    [(0x17004, 1#8), (0x17005, 2#8), (0x17000, 0x11#8), (0x17001, 0x12#8), (0x17002, 0x13#8)] := by decide +kernel

/-- The hypotheses of `C82_image` and `C82_hex_file_partial` are met; the addresses are those of the two records. -/
example : Java digit ∧ Lines (lines demoText) (demoRecs ++ [.eof]) ∧ (∀ r ∈ demoRecs, r ≠ .eof) ∧ (∀ r ∈ demoRecs, r.Short) ∧
    Plain (.linear 0) demoRecs ∧ (∀ a, (content demoRecs a).isSome → a + 1 < 2 ^ 31) ∧ ((placed (.linear 0) demoRecs).map (·.1)).Nodup ∧
    content demoRecs 0x17001 = some 0x12#8 ∧ content demoRecs 0x17003 = none := by
  refine ⟨digit_java, demo_lines, ?_, ?_, ?_, ?_, ?_, by decide +kernel, by decide +kernel⟩
  · intro r hr
    simp only [demoRecs, List.mem_cons, List.not_mem_nil, or_false] at hr
    rcases hr with rfl | rfl | rfl <;> exact fun h => by cases h
  · intro r hr
    simp only [demoRecs, List.mem_cons, List.not_mem_nil, or_false] at hr
    rcases hr with rfl | rfl | rfl
    · exact trivial
    · show (2 : Nat) ≤ 255; decide
    · show (3 : Nat) ≤ 255; decide
  · exact ⟨List.cons_ne_nil _ _, by show 1 * 65536 + 28676 + 2 ≤ 2 ^ 32; decide, List.cons_ne_nil _ _,
      by show 1 * 65536 + 28672 + 3 ≤ 2 ^ 32; decide, trivial⟩
  · intro a ha
    have ha : (lastAt (placed (.linear 0) demoRecs) a).isSome := ha
    rw [lastAt_isSome, demo_placed] at ha
    obtain ⟨v, hv⟩ := ha
    simp only [List.mem_cons, Prod.mk.injEq, List.not_mem_nil, or_false] at hv
    omega
  · rw [demo_placed]; decide

/-- What is read from it. -/
example : readFromHex digit demoText = some (0x17000, [0x11#8, 0x12#8, 0x13#8, 0xff#8, 1#8, 2#8]) := by decide +kernel

/-- `C82_one_character`: a damaged data digit is refused; a lower case digit, or a sign for a leading zero, changes nothing. -/
example : readFromHex digit (ascii [":02700400010387".toList, ":00000001FF".toList]) = none ∧
    readFromHex digit (ascii [":02700400010287".toList, ":00000001Ff".toList]) = some (0x7004, [1#8, 2#8]) ∧
    readFromHex digit (ascii [":02700400+10287".toList, ":00000001FF".toList]) = some (0x7004, [1#8, 2#8]) := by decide +kernel

/-- **C82, finding.** If a later record lies inside an earlier one, the image ends with the later one: four bytes are given for 0x1000 to
0x1003 and one again for 0x1001, and the image has only two bytes. -/
theorem C82_overlap_cut :
    (content [.data 0x1000#16 [1#8, 2#8, 3#8, 4#8], .data 0x1001#16 [9#8]] 0x1003 = some 4#8) ∧
    readFromHex digit (ascii [":0410000001020304E2".toList, ":0110010009E5".toList, ":00000001FF".toList]) =
      some (0x1000, [1#8, 9#8]) := by decide +kernel

/-- **C82, finding.** After a record with a segment base, offsets are not added to the base but combined with it bit by bit: segment 0x1001,
offset 0x10 is the address 0x10020, and the byte is put at 0x10010. -/
theorem C82_segment_or :
    (content [.segment 0x1001#16, .data 0x10#16 [0xAA#8]] 0x10020 = some 0xAA#8) ∧
    (content [.segment 0x1001#16, .data 0x10#16 [0xAA#8]] 0x10010 = none) ∧
    readFromHex digit (ascii [":020000021001EB".toList, ":01001000AA45".toList, ":00000001FF".toList]) =
      some (0x10010, [0xAA#8]) := by decide +kernel

/-- **C82, finding.** A data record without data moves the start of the image: the only bytes given are those at 4 and 5, and the image starts
at 0. -/
theorem C82_empty_record_extends :
    placed (.linear 0) [.data 0#16 [], .data 4#16 [1#8, 2#8]] = [(4, 1#8), (5, 2#8)] ∧
    readFromHex digit (ascii [":0000000000".toList, ":020004000102F7".toList, ":00000001FF".toList]) =
      some (0, [0xff#8, 0xff#8, 0xff#8, 0xff#8, 1#8, 2#8]) := by decide +kernel

/-! ## From the file to the device -/

open Verif.Iap Verif.Boot Verif.Boot.Spec Verif.Boot.Tool in
/-- **C82.** From the file to the device: the file gives no byte twice, its least address `lo` is the start of a page of the application area, its
greatest `hi` is in the flash. If no telegram is lost and the flash hardware works, then after the update every address the file gives a byte
for holds that byte, and the program at `lo` is started - whatever was in the device before. -/
theorem C82_file_to_device_partial {dig : Nat → Option Nat} (hd : Java dig) (text : List Nat) (rs : List Rec)
    (hl : Lines (lines text) (rs ++ [.eof])) (hne : ∀ r ∈ rs, r ≠ .eof) (hsh : ∀ r ∈ rs, r.Short) (hp : Plain (.linear 0) rs)
    (honce : ((placed (.linear 0) rs).map (·.1)).Nodup)
    (lo hi : Nat) (hlo : (content rs lo).isSome) (hhi : (content rs hi).isSome) (hlt : lo < hi)
    (hall : ∀ a, (content rs a).isSome → lo ≤ a ∧ a ≤ hi)
    (E : Env) (L : Layout E) (I : Info) (hw : Hw) (ram : Nat → Byte)
    (ms : List (List Byte)) (hm : ∀ m ∈ ms, Spec.Telegram m) (s : State) (resps : List Resp)
    (h : run E I (init E hw ram) ms = some (s, resps)) (pos fuel flashFuel blockSize : Nat)
    (hB : 0 < blockSize) (hB' : blockSize ≤ 1265) (hB'' : blockSize % 256 = 0)
    (uid : List Byte) (huid : Spec.UnlocksWith (bytesAt E.uid 0 12) (msgUnlock uid))
    (hfuel : hi + 1 - lo < fuel) (hff : blockSize < flashFuel)
    (hodd : E.imageEnd % 256 ≠ 1) (hf : ∀ k, E.fault k = none)
    (version : Nat) (hal : lo % 256 = 0) (hfirst : appFirst E ≤ lo) (hfit : hi < E.top) (eraseAll : Bool) :
    ∃ image c', readFromHex dig text = some (lo, image) ∧
      fullUpdate E I allAnswered fuel flashFuel blockSize uid image lo version eraseAll ⟨s, pos⟩ = some (c', some ()) ∧
      (∀ a v, content rs a = some v → c'.dev.hw.flash a = v) ∧
      startup E c'.dev.hw.flash false false = some (BitVec.ofNat 32 lo) := by
  have hsz := L.size
  have hsec := L.sectors
  obtain ⟨start, image, h1, h2, h3, h4⟩ := C82_hex_file_partial hd text rs hl hne hsh hp
    (fun a ha => by have := (hall a ha).2; omega) honce
  have hi1 := h2 lo hlo
  have hi2 := h2 hi hhi
  have hne : image ≠ [] := by
    intro e
    rw [e, List.length_nil] at hi1
    omega
  obtain ⟨g1, g2⟩ := h3 hne
  have hs : start = lo := by have := hall _ g1; omega
  subst hs
  have hlen : start + image.length - 1 = hi := by have := hall _ g2; omega
  obtain ⟨c', u1, u2, u3⟩ := C81_lossless_update_succeeds E L I hw ram ms hm s resps h pos fuel flashFuel blockSize hB hB' hB'' uid image huid
    (by omega) hff hodd hf start version (by omega) hal hfirst (by omega) eraseAll
  refine ⟨image, c', h1, u1, fun a v hv => ?_, u3⟩
  have hr := h2 a (by rw [hv]; rfl)
  have := u2 (a - start) (by omega)
  rw [show start + (a - start) = a by omega] at this
  rw [this, List.getD_eq_getElem?_getD, h4 _ (by omega), show start + (a - start) = a by omega, hv]
  rfl

open Verif.Iap Verif.Boot Verif.Boot.Spec Verif.Boot.Tool in
/-- A file for the device of the examples of C81: it is read, and this is what the update with it leads to. -/
example : readFromHex digit (ascii [":0410000001020304E2".toList, ":0210050009AA36".toList, ":00000001FF".toList]) =
      some (0x1000, [1#8, 2#8, 3#8, 4#8, 0xff#8, 9#8, 0xAA#8]) ∧
    demoUpdate allAnswered [1#8, 2#8, 3#8, 4#8, 0xff#8, 9#8, 0xAA#8] =
      some (some (), some 0x1000#32, [1#8, 2#8, 3#8, 4#8, 0xff#8, 9#8, 0xAA#8]) ∧
    Spec.UnlocksWith (bytesAt demoEnv.uid 0 12) (msgUnlock demoUid) ∧ demoEnv.imageEnd % 256 ≠ 1 ∧ appFirst demoEnv ≤ 0x1000 ∧
    0x1006 < demoEnv.top ∧ Plain (.linear 0) [.data 0x1000#16 [1#8, 2#8, 3#8, 4#8], .data 0x1005#16 [9#8, 0xAA#8]] := by
  refine ⟨by decide +kernel, by decide +kernel, by decide, by decide, by decide, by decide, ?_⟩
  exact ⟨List.cons_ne_nil _ _, by show 0 * 65536 + 0x1000 + 4 ≤ 2 ^ 32; decide, List.cons_ne_nil _ _,
      by show 0 * 65536 + 0x1005 + 2 ≤ 2 ^ 32; decide, trivial⟩

end Verif.Boot.Hex
