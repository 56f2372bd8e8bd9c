import Verif.Dev.SpecDownload
import Verif.Dev.Props69
import Verif.Dev.FrameEe

/-!
# C88 — what a configuration tool has written is there after the restart
-/

namespace Verif.Dev

open Verif.Knx

/-! ## Vocabulary -/

/-- The communication objects leave the EEPROM and the virtual memory alone. -/
def GroupKeeps (group : Dev → Buf → Nat → Dev × Option (Buf → Buf)) : Prop :=
  ∀ d t len, (group d t len).1.ee = d.ee ∧ (group d t len).1.mapper = d.mapper ∧
    (group d t len).1.eeModified = d.eeModified

theorem GroupKeeps.marks {group : Dev → Buf → Nat → Dev × Option (Buf → Buf)} (h : GroupKeeps group) :
    GroupMarks group := fun d t len => Or.inr ⟨(h d t len).1, (h d t len).2.2⟩

/-! ## Executed services -/

theorem executed_append (a b : List MainOut) : executed (a ++ b) = executed a ++ executed b := by
  induction a with
  | nil => rfl
  | cons x a ih =>
    cases x with
    | bus o => cases o <;> simp [executed, ih]
    | save e => simp [executed, ih]
    | reset b => simp [executed, ih]

theorem lastWritten_append (k : Kind) (a : Nat) (l l' : List Buf) : ∀ v,
    lastWritten k a (l ++ l') v = lastWritten k a l' (lastWritten k a l v) := by
  induction l with
  | nil => intro v; rfl
  | cons t l ih => intro v; exact ih _

/-- A step of the transport layer executes one service, or none. -/
theorem step_executed (A : TL4.App Dev) (s : TL4.State Dev) (op : TL4.Op) :
    (executed ((TL4.step A s op).2.map .bus) = [] ∧ ((TL4.step A s op).1.app = s.app ∨
      ∃ t len, op = .rx t len ∧
        ((destinationAddress t = 0#16 ∧ (TL4.step A s op).1.app = (A.broadcast s.app t len).1) ∨
         (TL4.step A s op).1.app = (A.group s.app t len).1))) ∨
    ∃ t len sb, op = .rx t len ∧ executed ((TL4.step A s op).2.map .bus) = [t] ∧
      (TL4.step A s op).1.app = (A.processApci s.app t len sb).1 := by
  cases hx : TL4.exec A s op with
  | none =>
    have : TL4.step A s op = (s, []) := by unfold TL4.step; rw [hx]; rfl
    rw [this]
    exact Or.inl ⟨rfl, Or.inl rfl⟩
  | some r =>
    have hst : TL4.step A s op = r := by unfold TL4.step; rw [hx]; rfl
    rw [hst]
    obtain ⟨s', o⟩ := r
    cases TL4.exec_trans A s s' op o hx with
    | rxBroadcast t len h => exact Or.inl ⟨rfl, Or.inr ⟨t, len, rfl, Or.inl ⟨h, rfl⟩⟩⟩
    | rxBroadcastSend t len f h => exact Or.inl ⟨rfl, Or.inr ⟨t, len, rfl, Or.inl ⟨h, rfl⟩⟩⟩
    | rxGroup t len h hg => exact Or.inl ⟨rfl, Or.inr ⟨t, len, rfl, Or.inr rfl⟩⟩
    | rxGroupSend t len f h hg => exact Or.inl ⟨rfl, Or.inr ⟨t, len, rfl, Or.inr rfl⟩⟩
    | individual t len hu => exact Or.inr ⟨t, len, _, rfl, rfl, rfl⟩
    | individualSend t len r hu hc htx hr hs =>
      subst hr
      exact Or.inr ⟨t, len, _, rfl, rfl, rfl⟩
    | dataAccepted t len hu =>
      right
      refine ⟨t, len, ?_⟩
      unfold TL4.a02Process
      dsimp only
      repeat' split
      all_goals exact ⟨_, rfl, rfl, rfl⟩
    | ackOk t len =>
      refine Or.inl ⟨rfl, Or.inl ?_⟩
      dsimp only
      unfold TL4.a08
      dsimp only
      repeat' split
      all_goals rfl
    | _ => exact Or.inl ⟨rfl, Or.inl rfl⟩

/-! ## One service -/

section
variable {W : World}

theorem ramStore_mapper (src : Nat → Byte) : ∀ (n a o : Nat) (d : Dev), (ramStore src n a o d).mapper = d.mapper := by
  intro n
  induction n with
  | zero => intro a o d; rfl
  | succ n ih =>
    intro a o d
    unfold ramStore
    rw [ih]
    split <;> rfl

theorem cpyToUserRam_mapper (k : Kind) (d : Dev) (a : Nat) (src : Nat → Byte) (o n : Nat) :
    (cpyToUserRam k d a src o n).mapper = d.mapper := by
  unfold cpyToUserRam
  dsimp only
  repeat' split
  all_goals first | rfl | exact ramStore_mapper ..

theorem memIter_mapper (fin : Nat) (p : Pos) (h : p.d.mapper = none) : (memIter W false fin p).1.d.mapper = none := by
  have v1 : viaMapper W false fin { p with found := false } = ({ p with found := false }, none) := by
    unfold viaMapper; dsimp only; rw [h]
  have v2 : ∀ q : Pos, q.d.mapper = none → (viaEeprom W false fin q).1.d.mapper = none := by
    intro q hq
    unfold viaEeprom eeCopy
    repeat' split
    all_goals exact hq
  have v3 : ∀ q : Pos, q.d.mapper = none → (viaRam W false fin q).1.d.mapper = none := by
    intro q hq
    unfold viaRam ramCopy
    repeat' split
    all_goals first | exact hq | exact (cpyToUserRam_mapper ..).trans hq | cases ‹false = true›
  unfold memIter
  rw [v1]
  dsimp only
  have b1 := v2 { p with found := false } h
  cases h2 : (viaEeprom W false fin { p with found := false }).2 with
  | some b => exact b1
  | none => exact v3 _ b1

theorem memLoop_mapper (fin : Nat) : ∀ (n : Nat) (p : Pos), p.d.mapper = none →
    (memLoop W false fin n p).1.d.mapper = none := by
  intro n
  induction n with
  | zero => intro p h; exact h
  | succ n ih =>
    intro p h
    unfold memLoop
    by_cases hc : p.found = true ∧ p.addr ≤ fin
    · rw [if_pos hc]
      dsimp only
      have a1 := memIter_mapper (W := W) fin p h
      cases h2 : (memIter W false fin p).2 with
      | some b => exact a1
      | none => exact ih _ a1
    · rw [if_neg hc]; exact h

theorem memOp_mapper (d : Dev) (a : Nat) (buf : Nat → Byte) (off n : Nat) (h : d.mapper = none) :
    (memOp W false d a buf off n).1.mapper = none := by
  unfold memOp
  by_cases hn : n = 0
  · rw [if_pos hn]; exact h
  · rw [if_neg hn]; exact memLoop_mapper (W := W) _ _ ⟨d, buf, a, off, true⟩ h

theorem space_present (d : Dev) (h : d.mapper = none) (a : Nat) : (space W d a).isSome = true ↔ MemoryAt W.kind a := by
  have hm : mappedAt W d a = false := by unfold mappedAt; rw [h]
  unfold space MemoryAt
  rw [if_neg (by rw [hm]; decide)]
  by_cases h1 : W.kind.eeStart ≤ a ∧ a < W.kind.eeStart + W.kind.eeSize
  · rw [if_pos h1]; exact ⟨fun _ => Or.inl h1, fun _ => rfl⟩
  · rw [if_neg h1]
    by_cases h2 : W.kind.ramStart ≤ a ∧ a < W.kind.ramStart + W.kind.ramSize
    · rw [if_pos h2]; exact ⟨fun _ => Or.inr h2, fun _ => rfl⟩
    · rw [if_neg h2]
      constructor
      · intro h; cases h
      · rintro (h | h)
        · exact absurd h h1
        · exact absurd h h2

theorem space_ee (d : Dev) (h : d.mapper = none) (i : Nat) (hi : i < W.kind.eeSize) :
    space W d (W.kind.eeStart + i) = some (d.ee i) := by
  have hm : mappedAt W d (W.kind.eeStart + i) = false := by unfold mappedAt; rw [h]
  unfold space
  rw [if_neg (by rw [hm]; decide), if_pos (by omega), Nat.add_sub_cancel_left]

/-- How far a memory write gets. -/
theorem reach (k : Kind) (a n : Nat) : ∃ m, m ≤ n ∧ (∀ i, i < m → MemoryAt k (a + i)) ∧
    (m = n ∨ ¬ MemoryAt k (a + m)) := by
  induction n with
  | zero => exact ⟨0, Nat.le_refl 0, fun i h => absurd h (Nat.not_lt_zero i), Or.inl rfl⟩
  | succ n ih =>
    obtain ⟨m, h1, h2, h3⟩ := ih
    rcases h3 with h3 | h3
    · by_cases hm : MemoryAt k (a + m)
      · refine ⟨m + 1, by omega, fun i hi => ?_, Or.inl (by omega)⟩
        by_cases e : i = m
        · rw [e]; exact hm
        · exact h2 i (by omega)
      · exact ⟨m, by omega, h2, Or.inr hm⟩
    · exact ⟨m, by omega, h2, Or.inr h3⟩

/-- One byte of the EEPROM after a memory write. -/
theorem memOp_byte (d : Dev) (hm : d.mapper = none) (t : Buf) (i : Nat) (hi : i < W.kind.eeSize) :
    (memOp W false d (writeAddress t) t 10 (writeCount t)).1.ee i =
      if writeAddress t ≤ W.kind.eeStart + i ∧ W.kind.eeStart + i < writeAddress t + writeCount t ∧
        (∀ j, j < W.kind.eeStart + i + 1 - writeAddress t → MemoryAt W.kind (writeAddress t + j)) then
        byteFor t (W.kind.eeStart + i) else d.ee i := by
  generalize ha : writeAddress t = a
  generalize hn : writeCount t = n
  have hn16 : n ≤ 15 := by rw [← hn]; unfold writeCount; omega
  by_cases hin : a ≤ W.kind.eeStart + i ∧ W.kind.eeStart + i < a + n
  · have hok : MapperOk W d := fun s hs => by rw [hm] at hs; cases hs
    have hal : NotStatusAlias W a n := by
      unfold NotStatusAlias
      by_cases h0 : W.kind.ramStart = 0
      · exact Or.inl h0
      · right
        left
        intro h60
        have : 0x100 ≤ W.kind.eeStart := by cases W.kind <;> decide
        omega
    have hdl : (slice t 10 n).length = n := by unfold slice; simp
    obtain ⟨w, -⟩ := memOp_write (W := W) hok a t 10 (slice t 10 n) (by rw [hdl]; omega) (by rw [hdl]; exact hal)
      (fun j hj => by
        rw [hdl] at hj
        unfold slice
        simp [List.getD, hj])
    rw [hdl] at w
    have hm' : (memOp W false d a t 10 n).1.mapper = none := memOp_mapper d a t 10 n hm
    have hs := w.space (W.kind.eeStart + i)
    rw [space_ee _ hm' i hi] at hs
    obtain ⟨m, m1, m2, m3⟩ := reach W.kind a n
    obtain ⟨-, w2⟩ := writeBytes_spec (slice t 10 n) (space W d) a m (by rw [hdl]; exact m1)
      (fun j hj => (space_present d hm _).2 (m2 j hj))
      (by
        rw [hdl]
        rcases m3 with h | h
        · exact Or.inl h
        · right
          cases hx : (space W d (a + m)).isSome with
          | false => rfl
          | true => exact absurd ((space_present d hm _).1 hx) h)
    rw [w2] at hs
    by_cases hr : W.kind.eeStart + i < a + m
    · rw [if_pos ⟨hin.1, hr⟩] at hs
      rw [if_pos ⟨hin.1, hin.2, fun j hj => m2 j (by omega)⟩]
      have hs := Option.some.inj hs
      rw [hs]
      unfold byteFor slice
      rw [ha]
      have hlt : W.kind.eeStart + i - a < n := by omega
      simp [List.getD, hlt]
    · rw [if_neg (by omega), space_ee d hm i hi] at hs
      rw [if_neg]
      · exact Option.some.inj hs
      · rintro ⟨-, -, hall⟩
        rcases m3 with h | h
        · omega
        · exact h (hall m (by omega))
  · rw [if_neg (fun h => hin ⟨h.1, h.2.1⟩)]
    exact memOp_w (W := W) d a t 10 n i (by omega)

theorem memResponse_ee (d : Dev) (a : Word) (n : Nat) (sb : Buf) :
    (memResponse W d a n sb).1.ee = d.ee ∧ (memResponse W d a n sb).1.mapper = d.mapper := by
  rw [memResponse_same]
  split <;> exact ⟨rfl, rfl⟩

theorem setWord_other (e : Nat → Byte) (o : Nat) (w : Word) (i : Nat) (h : i ≠ o) (h1 : i ≠ o + 1) :
    setWord e o w i = e i := by
  unfold setWord
  rw [upd_ne _ _ _ _ (by assumption), upd_ne _ _ _ _ (by assumption)]

/-- A load record changes managed bytes only. -/
theorem loadProperty_byte (hb : W.kind ≠ .systemb) (h1 : W.kind ≠ .bcu1) (h2 : W.kind ≠ .bcu2) (d : Dev) (obj : Nat)
    (data : Nat → Byte) (len : Int) (i : Nat) (hi : ¬ ManagedByte W.kind i) :
    (loadProperty W d obj data len).1.ee i = d.ee i := by
  have hi : ¬ ((3 ≤ i ∧ i ≤ 9) ∨ (0x370 ≤ i ∧ i ≤ 0x384)) := fun h => hi ⟨h1, h2, h⟩
  have e1 : addrTabAddrOff W.kind = 0x378 := by cases h : W.kind <;> simp_all [addrTabAddrOff]
  have e2 : assocTabAddrOff W.kind = 0x37A := by cases h : W.kind <;> simp_all [assocTabAddrOff]
  unfold loadProperty
  by_cases hl : len > 11 ∨ len < 10
  · rw [if_pos hl]
  rw [if_neg hl]
  dsimp only
  rw [if_neg (fun h => hb h.1), if_neg (fun h => hb h.1)]
  split
  · rfl
  unfold additionalLoadControl
  split
  · rfl
  · rfl
  · unfold allocTaskSegment
    dsimp only
    split
    · rw [e1]; exact setWord_other _ _ _ _ (by omega) (by omega)
    · rw [e2]; exact setWord_other _ _ _ _ (by omega) (by omega)
    · rw [if_neg h2]
      dsimp only
      rw [upd_ne _ _ _ _ (by omega), upd_ne _ _ _ _ (by omega), upd_ne _ _ _ _ (by omega), upd_ne _ _ _ _ (by omega),
        upd_ne _ _ _ _ (by omega), upd_ne _ _ _ _ (by omega)]
      exact setWord_other _ _ _ _ (by omega) (by omega)
    · rfl
  · rfl
  · rw [if_neg hb]
    unfold taskCtrl1
    dsimp only
    rw [upd_ne _ _ _ _ (by omega)]
    exact setWord_other _ _ _ _ (by omega) (by omega)
  · rw [if_neg hb]
    unfold taskCtrl2
    dsimp only
    rw [setWord_other _ _ _ _ (by omega) (by omega), setWord_other _ _ _ _ (by omega) (by omega)]
    exact setWord_other _ _ _ _ (by omega) (by omega)
  · rfl
  · rw [if_neg hb]
  · rfl

/-- A memory write request. -/
theorem memWrite_byte (d : Dev) (hm : d.mapper = none) (t : Buf) (ho : ¬ OtherChange W.kind t)
    (hc : apciCommand t = 0x280#16) (i : Nat) (hi : i < W.kind.eeSize) (hmg : ¬ ManagedByte W.kind i) :
    (memWritePDU W d (writeAddress t) t (writeCount t)).1.ee i =
      (if WritesTo W.kind t (W.kind.eeStart + i) then byteFor t (W.kind.eeStart + i) else d.ee i) ∧
    (memWritePDU W d (writeAddress t) t (writeCount t)).1.mapper = none := by
  unfold memWritePDU
  by_cases hl : W.kind ≠ .bcu1 ∧ W.kind ≠ .bcu2 ∧ writeAddress t = 0x104
  · rw [if_pos hl, if_neg (fun h : WritesTo W.kind t _ => h.2.1 hl)]
    dsimp only
    have hb : W.kind ≠ .systemb := fun h => ho (Or.inr (Or.inr ⟨h, hc, hl.2.2⟩))
    have hi : ¬ ((3 ≤ i ∧ i ≤ 9) ∨ (0x370 ≤ i ∧ i ≤ 0x384)) := fun h => hmg ⟨hl.1, hl.2.1, h⟩
    split
    · refine ⟨?_, ?_⟩
      · show upd _ _ _ i = _
        rw [upd_ne _ _ _ _ (by unfold loadStateOff; omega)]
        exact loadProperty_byte hb hl.1 hl.2.1 d _ _ _ i hmg
      · exact (loadProperty_eeOnly (W := W) d _ _ _).mapper.trans hm
    · exact ⟨rfl, hm⟩
  · rw [if_neg hl]
    refine ⟨?_, memOp_mapper d _ _ _ _ hm⟩
    show (memOp W false d (writeAddress t) t 10 (writeCount t)).1.ee i = _
    rw [memOp_byte d hm t i hi]
    by_cases hx : writeAddress t ≤ W.kind.eeStart + i ∧ W.kind.eeStart + i < writeAddress t + writeCount t ∧
        (∀ j, j < W.kind.eeStart + i + 1 - writeAddress t → MemoryAt W.kind (writeAddress t + j))
    · rw [if_pos hx, if_pos ⟨hc, hl, hx⟩]
    · rw [if_neg hx, if_neg (fun h => hx h.2.2)]

theorem defaultApci_other (d : Dev) (t sb : Buf) (hc : apciCommand t ≠ 0x280#16) :
    (defaultApci W d (apciCommand t) t sb).1.ee = d.ee ∧ (defaultApci W d (apciCommand t) t sb).1.mapper = d.mapper := by
  unfold defaultApci
  split
  · exact ⟨rfl, rfl⟩
  split
  · unfold memService
    dsimp only
    rw [if_neg hc]
    exact memResponse_ee ..
  split
  · split <;> exact ⟨rfl, rfl⟩
  split
  · unfold masterReset
    dsimp only
    generalize (if t 8 = 7#8 ∧ t 9 = 255#8 then _ else _ : RestartType × Byte) = r
    split <;> exact ⟨rfl, rfl⟩
  split
  · exact ⟨rfl, rfl⟩
  split <;> exact ⟨rfl, rfl⟩

/-- One byte of the EEPROM after any service. -/
theorem service_byte (d : Dev) (hm : d.mapper = none) (t : Buf) (l : Nat) (sb : Buf) (ho : ¬ OtherChange W.kind t)
    (i : Nat) (hi : i < W.kind.eeSize) (hmg : ¬ ManagedByte W.kind i) :
    (processApci W d t l sb).1.ee i =
      (if WritesTo W.kind t (W.kind.eeStart + i) then byteFor t (W.kind.eeStart + i) else d.ee i) ∧
    (processApci W d t l sb).1.mapper = none := by
  by_cases hc : apciCommand t = 0x280#16
  · obtain ⟨h1, h2⟩ := memWrite_byte d hm t ho hc i hi hmg
    rw [apply_memWrite d t l sb hc]
    split
    · have h3 := memResponse_ee (W := W) (memWritePDU W d (makeWord (t 8) (t 9)).toNat t ((t 7).toNat % 16)).1
        (makeWord (t 8) (t 9)) ((t 7).toNat % 16) sb
      exact ⟨(congrFun h3.1 i).trans h1, h3.2.trans h2⟩
    · exact ⟨h1, h2⟩
  · rw [if_neg (fun h : WritesTo W.kind t _ => hc h.1)]
    have hd := defaultApci_other (W := W) d t sb hc
    unfold processApci
    split
    · exact ⟨congrFun hd.1 i, hd.2.trans hm⟩
    rename_i hk
    unfold bcu2Apci
    by_cases hp : apciCommand t = 0x3d5#16 ∨ apciCommand t = 0x3d7#16
    · have h5 : apciCommand t = 0x3d5#16 := hp.resolve_right (fun h => ho (Or.inl ⟨hk, h⟩))
      rw [if_pos hp]
      dsimp only
      rw [if_pos h5]
      unfold propRead
      dsimp only
      repeat' split
      all_goals exact ⟨rfl, hm⟩
    · rw [if_neg hp]
      by_cases h8 : apciCommand t = 0x3d8#16
      · rw [if_pos h8]
        unfold propDesc
        dsimp only
        repeat' split
        all_goals exact ⟨rfl, hm⟩
      · rw [if_neg h8]
        exact ⟨congrFun hd.1 i, hd.2.trans hm⟩

theorem broadcast_other (d : Dev) (t : Buf) (h0 : destinationAddress t = 0#16) (ho : ¬ OtherChange W.kind t) :
    (broadcast W d t).1 = d := by
  have hc : apciCommand t ≠ 0x0c0#16 := fun h => ho (Or.inr (Or.inl ⟨h0, Or.inl h⟩))
  have he : apciCommand t ≠ 0x3de#16 := fun h => ho (Or.inr (Or.inl ⟨h0, Or.inr h⟩))
  have hd : (defaultBroadcast W d (apciCommand t) t).1 = d := by
    unfold defaultBroadcast
    rw [if_neg hc]
    repeat' split
    all_goals rfl
  unfold broadcast
  dsimp only
  rw [if_neg he]
  repeat' split
  all_goals first | exact hd | rfl

end

/-! ## The loop -/

section
variable (W : World) (group : Dev → Buf → Nat → Dev × Option (Buf → Buf)) (i : Nat)

/-- Byte `i` of the EEPROM has changed as the executed services say. -/
def Follows (m : Main) (r : MRes) : Prop :=
  r.1.tl.app.mapper = none ∧
  r.1.tl.app.ee i = lastWritten W.kind (W.kind.eeStart + i) (executed r.2) (m.tl.app.ee i)

theorem Follows.then {m : Main} {r : MRes} {f : Main → MRes} (h : Follows W i m r)
    (hf : r.1.tl.app.mapper = none → Follows W i r.1 (f r.1)) : Follows W i m (r.then f) := by
  obtain ⟨h1, h2⟩ := hf h.1
  refine ⟨h1, ?_⟩
  show (f r.1).1.tl.app.ee i = lastWritten _ _ (executed (r.2 ++ (f r.1).2)) _
  rw [executed_append, lastWritten_append, ← h.2]
  exact h2

theorem Follows.same {m m' : Main} {o : List MainOut} (h : m'.tl.app.mapper = none) (he : m'.tl.app.ee = m.tl.app.ee)
    (ho : executed o = []) : Follows W i m (m', o) := by
  refine ⟨h, ?_⟩
  show m'.tl.app.ee i = lastWritten _ _ (executed o) _
  rw [ho, he]
  rfl

variable (hg : GroupKeeps group) (hi : i < W.kind.eeSize) (hmg : ¬ ManagedByte W.kind i)
include hg hi hmg

theorem tlOp_follows (m : Main) (hm : m.tl.app.mapper = none) (op : TL4.Op)
    (hok : ∀ t len, op = .rx t len → ¬ OtherChange W.kind t) (ha : ∀ a, op ≠ .setOwnAddress a) :
    Follows W i m (tlOp W group m op) := by
  generalize hs0 : ({ m.tl with app := { m.tl.app with restart := .none } } : TL4.State Dev) = s0
  have m0 : s0.app.mapper = none := by rw [← hs0]; exact hm
  have e0 : s0.app.ee = m.tl.app.ee := by rw [← hs0]
  have hsys : (sysStep W group s0 (.tl op)).1.app = (TL4.step (app W group) s0 op).1.app ∧
      (sysStep W group s0 (.tl op)).2 = (TL4.step (app W group) s0 op).2 := by
    unfold sysStep
    dsimp only
    split
    · rename_i a; exact absurd rfl (ha a)
    · exact ⟨rfl, rfl⟩
  have key : (TL4.step (app W group) s0 op).1.app.mapper = none ∧
      (TL4.step (app W group) s0 op).1.app.ee i = lastWritten W.kind (W.kind.eeStart + i)
        (executed ((TL4.step (app W group) s0 op).2.map .bus)) (s0.app.ee i) := by
    rcases step_executed (app W group) s0 op with ⟨h1, h2⟩ | ⟨t, len, sb, hop, h1, h2⟩
    · rw [h1]
      rcases h2 with h2 | ⟨t, len, hop, ⟨hd, h2⟩ | h2⟩
      · rw [h2]; exact ⟨m0, rfl⟩
      · have hb : (TL4.step (app W group) s0 op).1.app = s0.app :=
          h2.trans (broadcast_other (W := W) s0.app t hd (hok t len hop))
        rw [hb]; exact ⟨m0, rfl⟩
      · obtain ⟨g1, g2, -⟩ := hg s0.app t len
        rw [h2]
        exact ⟨g2.trans m0, congrFun g1 i⟩
    · rw [h1, h2]
      obtain ⟨k1, k2⟩ := service_byte (W := W) s0.app m0 t len sb (hok t len hop) i hi hmg
      exact ⟨k2, k1⟩
  rw [← hsys.1, ← hsys.2, e0] at key
  unfold tlOp
  rw [hs0]
  dsimp only
  unfold Follows
  split <;> exact key

theorem irq_follows (m : Main) (hm : m.tl.app.mapper = none) (x : Option Bool) : Follows W i m (irq W group x m) := by
  cases x with
  | none => exact Follows.same W i hm rfl rfl
  | some ok => exact tlOp_follows W group i hg hi hmg m hm _ (fun _ _ h => by cases h) (fun _ h => by cases h)

omit hg hi hmg in
theorem flush_follows (m : Main) (hm : m.tl.app.mapper = none) : Follows W i m (flush W m) := by
  unfold flush
  dsimp only
  rw [hm]
  split <;> exact Follows.same W i rfl rfl rfl

theorem mainStep_follows (m : Main) (hm : m.tl.app.mapper = none) (e : MainEv)
    (he : ∀ x t len, e = .loop x → x.rx = some (t, len) → ¬ OtherChange W.kind t) (ha : ∀ a, e ≠ .setOwnAddress a) :
    Follows W i m (mainStep W group m e) := by
  have htl : ∀ m, m.tl.app.mapper = none → ∀ op, (∀ t len, op ≠ .rx t len) → (∀ a, op ≠ .setOwnAddress a) →
      Follows W i m (tlOp W group m op) := fun m hm op h1 h2 =>
    tlOp_follows W group i hg hi hmg m hm op (fun t len h => absurd h (h1 t len)) h2
  have hirq := fun m hm x => irq_follows W group i hg hi hmg m hm x
  have hrefl : ∀ m : Main, m.tl.app.mapper = none → Follows W i m (m, []) := fun m hm => Follows.same W i hm rfl rfl
  have hpoll : ∀ ack m, m.tl.app.mapper = none → Follows W i m (pollRestart W group ack m) := by
    intro ack m hm
    unfold pollRestart
    split
    · exact hrefl m hm
    split
    · exact hrefl m hm
    split
    · exact (htl m hm .disconnect (fun _ _ h => by cases h) (fun _ h => by cases h)).then W i
        fun h => Follows.same W i h rfl rfl
    · dsimp only
      split
      · unfold softReset
        exact (flush_follows W i { m with timeout := (m.timeout.expired m.tl.clock).1 } hm).then W i
          fun h => Follows.same W i h rfl rfl
      · exact Follows.same W i hm rfl rfl
  have hhead : ∀ x m, (∀ t len, x.rx = some (t, len) → ¬ OtherChange W.kind t) → m.tl.app.mapper = none →
      Follows W i m (loopHead W group x m) := by
    intro x m hok hm
    unfold loopHead
    refine (Follows.then W i (Follows.then W i (Follows.then W i (Follows.then W i (Follows.then W i (hirq m hm _) ?_) ?_) ?_) ?_) ?_)
    · exact fun h => htl _ h _ (fun _ _ h => by cases h) (fun _ h => by cases h)
    · exact fun h => hirq _ h _
    · intro h
      unfold receive
      split
      · exact hrefl _ h
      · rename_i hrx
        split
        · exact tlOp_follows W group i hg hi hmg _ h _ (fun t len e => by cases e; exact hok _ _ hrx)
            (fun _ h => by cases h)
        · exact hrefl _ h
    · intro h
      unfold pollButton
      dsimp only
      split <;> exact Follows.same W i h rfl rfl
    · exact fun h => hirq _ h _
  have hfl : ∀ m : Main, m.tl.app.mapper = none → Follows W i m
      (if m.tl.app.eeModified && decide (m.tl.phase = .closed) then flush W m else (m, [])) := by
    intro m hm
    split
    · exact flush_follows W i _ hm
    · exact hrefl _ hm
  have htail : ∀ x m, m.tl.app.mapper = none → Follows W i m (loopTail W group x m) := by
    intro x m hm
    unfold loopTail
    split
    · exact hrefl m hm
    · dsimp only
      refine Follows.then W i ?_ ?_
      · split
        · exact hrefl m hm
        · split
          · exact htl m hm _ (fun _ _ h => by cases h) (fun _ h => by cases h)
          · exact hrefl m hm
      · exact hfl _
  unfold mainStep
  split
  · exact hrefl m hm
  cases e with
  | loop x =>
    show Follows W i m (mainLoop W group x m)
    unfold mainLoop
    split
    · exact hrefl m hm
    · exact Follows.then W i (Follows.then W i (Follows.then W i (hhead x m (fun t len => he x t len rfl) hm) (hpoll _ _)) (fun h => hirq _ h _)) (htail x _)
  | advance ms => exact htl m hm _ (fun _ _ h => by cases h) (fun _ h => by cases h)
  | txDone ok => exact htl m hm _ (fun _ _ h => by cases h) (fun _ h => by cases h)
  | userSend f => exact htl m hm _ (fun _ _ h => by cases h) (fun _ h => by cases h)
  | setOwnAddress a => exact absurd rfl (ha a)
  | setProgMode on =>
    show Follows W i m ({ m with tl := (sysStep W group m.tl (.setProgMode on)).1, led := _ }, _)
    unfold sysStep
    dsimp only
    split <;> exact Follows.same W i hm rfl rfl

theorem mainRun_follows (es : List MainEv) (hes : MemoryOnly W.kind es) : ∀ m : Main, m.tl.app.mapper = none →
    Follows W i m (mainRun W group m es) := by
  induction es with
  | nil => intro m hm; exact Follows.same W i hm rfl rfl
  | cons e es ih =>
    intro m hm
    have he := hes e List.mem_cons_self
    exact (mainStep_follows W group i hg hi hmg m hm e he.1 he.2).then W i
      (ih (fun e' h' => hes e' (List.mem_cons_of_mem _ h')) _)

end

/-! ## The claims -/

section
variable (W : World) (group : Dev → Buf → Nat → Dev × Option (Buf → Buf))

/-- **C88 (part).** In every history in which the EEPROM is changed by memory writes only: each byte of the EEPROM
holds the last byte an executed request wrote there, and what it held at the beginning if no request did.
Repeated, rejected and foreign telegrams, interrupted connections, and everything else that happens, do not count. -/
theorem C88_contents_partial (hg : GroupKeeps group) (m : Main) (hm : m.tl.app.mapper = none) (es : List MainEv)
    (hes : MemoryOnly W.kind es) (i : Nat) (hi : i < W.kind.eeSize) (hmg : ¬ ManagedByte W.kind i) :
    (mainRun W group m es).1.tl.app.ee i =
      lastWritten W.kind (W.kind.eeStart + i) (executed (mainRun W group m es).2) (m.tl.app.ee i) :=
  (mainRun_follows W group i hg hi hmg es hes m hm).2

/-- **C88 (part).** A device is switched on, configured by memory writes in any number of connections, and either
resets itself, or is switched off when nothing is marked as modified (C68: after a loop without a connection). After
the next start each byte of the EEPROM holds the last byte an executed request wrote there (or what it held before),
except where the start itself writes. -/
theorem C88_after_restart_partial (hg : GroupKeeps group) (s : Setup) (f : Nat → Byte) (hf : Clear W.kind s f) (c0 : Nat)
    (d0 : Time.Debouncer) (l0 : Bool) (es : List MainEv) (hes : MemoryOnly W.kind es)
    (m0 : Main) (hm0 : m0 = boot W s c0 d0 l0 f none) (m : Main) (hm : m = (mainRun W group m0 es).1)
    (hn : m.off ≠ none ∨ m.tl.app.eeModified = false) (hc : Clear W.kind s m.flash) (clock : Nat)
    (deb : Time.Debouncer) (led : Bool) (i : Nat) (hi : i < W.kind.eeSize) (hmg : ¬ ManagedByte W.kind i)
    (hs : ¬ ChangedAtStart W.kind s m.flash i) :
    (powerCycle W s clock deb led m).tl.app.ee i =
      lastWritten W.kind (W.kind.eeStart + i) (executed (mainRun W group m0 es).2) (m0.tl.app.ee i) := by
  obtain ⟨b, -, hmp⟩ := begun (W := W) (s := s) hf none
  have hnone : m0.tl.app.mapper = none := by rw [hm0]; exact hmp
  rw [← C88_contents_partial W group hg m0 hnone es hes i hi hmg, ← hm]
  have h0 : m0.off = none := by rw [hm0]; rfl
  have hn : m.tl.app.eeModified = false := by
    rcases hn with h | h
    · rw [hm]; exact run_off_clean W group es m0 h0 (by rw [← hm]; exact h)
    · exact h
  have hsy : Synced (AtStart W.kind s) m := by
    rw [hm]
    refine mainRun_keeps W group (Synced (AtStart W.kind s))
      (fun e => ∀ i t len, e = .loop i → i.rx = some (t, len) → ¬ PropertyLoad W t)
      (fun m e he h => mainStep_synced W group _ hg.marks m e he h) es ?_ m0 ?_
    · intro e he x t len h1 h2 hp
      exact (hes e he).1 x t len h1 h2 (Or.inl ⟨hp.1, hp.2.1⟩)
    · rw [hm0]; exact boot_synced W s f hf c0 d0 l0 none
  have hsy := hsy.resolve_left (by rw [hn]; decide)
  rw [← hsy i (fun q => hs (Or.inl q))]
  exact (C69_starts_as_saved_partial W s m.flash hc clock deb led _).1 i hs

end

/-- What `lastWritten` means: the byte of the last telegram that writes the address. -/
theorem C88_last_write (k : Kind) (a : Nat) (pre post : List Buf) (t : Buf) (ht : WritesTo k t a)
    (hp : ∀ u ∈ post, ¬ WritesTo k u a) (v : Byte) : lastWritten k a (pre ++ t :: post) v = byteFor t a := by
  have key : ∀ (l : List Buf), (∀ u ∈ l, ¬ WritesTo k u a) → ∀ v, lastWritten k a l v = v := by
    intro l
    induction l with
    | nil => intro _ v; rfl
    | cons u l ih =>
      intro h v
      unfold lastWritten
      rw [if_neg (h u List.mem_cons_self)]
      exact ih (fun w hw => h w (List.mem_cons_of_mem _ hw)) v
  rw [lastWritten_append]
  unfold lastWritten
  rw [if_pos ht]
  exact key post hp _

/-- And what it was before, if no telegram writes the address. -/
theorem C88_not_written (k : Kind) (a : Nat) (l : List Buf) (h : ∀ u ∈ l, ¬ WritesTo k u a) (v : Byte) :
    lastWritten k a l v = v := by
  induction l generalizing v with
  | nil => rfl
  | cons u l ih =>
    unfold lastWritten
    rw [if_neg (h u List.mem_cons_self)]
    exact ih (fun w hw => h w (List.mem_cons_of_mem _ hw)) v

/-! ### The hypotheses are met -/

/-- A download: T_CONNECT, 0x99 written to 0x0150, the same telegram once more (not executed again), 0x77 0x78
written to 0x0150, A_Restart; the device disconnects and resets itself. -/
def exDownload : List MainEv := exDo [0x80#8] ++ exDo exConfig ++ exDo exConfig ++
  exDo [0x46#8, 0x82#8, 0x01#8, 0x50#8, 0x77#8, 0x78#8] ++ exDo [0x4b#8, 0x80#8] ++
  [.loop exLoop, .txDone true, .advance 300, .loop exLoop]

def exStart88 : Main := exBoot (exImage 1#8 0x0116#16)
def exDone88 : Main := (mainRun exWorld exGroup exStart88 exDownload).1

theorem exDownload_only : MemoryOnly .bcu2 exDownload := by
  have hno : ∀ l, l = [0x80#8] ∨ l = exConfig ∨ l = [0x46#8, 0x82#8, 0x01#8, 0x50#8, 0x77#8, 0x78#8] ∨
      l = [0x4b#8, 0x80#8] → ¬ OtherChange .bcu2 (exFrom l) := by
    rintro l (rfl | rfl | rfl | rfl) (⟨-, h⟩ | ⟨h, -⟩ | ⟨h, -⟩) <;> (revert h; decide +kernel)
  have hdo : ∀ l, ¬ OtherChange .bcu2 (exFrom l) → ∀ e ∈ exDo l,
      (∀ i t len, e = .loop i → i.rx = some (t, len) → ¬ OtherChange .bcu2 t) ∧ ∀ a, e ≠ .setOwnAddress a := by
    intro l hl e he
    simp only [exDo, List.mem_cons, List.not_mem_nil, or_false] at he
    rcases he with rfl | rfl | rfl | rfl
    · refine ⟨fun i t len h1 h2 => ?_, fun a h => by cases h⟩
      cases h1; cases h2; exact hl
    · exact ⟨fun i t len h1 => (by cases h1), fun a h => by cases h⟩
    · exact ⟨fun i t len h1 h2 => (by cases h1; cases h2), fun a h => by cases h⟩
    · exact ⟨fun i t len h1 => (by cases h1), fun a h => by cases h⟩
  intro e he
  simp only [exDownload, List.mem_append] at he
  rcases he with ((((he | he) | he) | he) | he) | he
  · exact hdo _ (hno _ (Or.inl rfl)) e he
  · exact hdo _ (hno _ (Or.inr (Or.inl rfl))) e he
  · exact hdo _ (hno _ (Or.inr (Or.inl rfl))) e he
  · exact hdo _ (hno _ (Or.inr (Or.inr (Or.inl rfl)))) e he
  · exact hdo _ (hno _ (Or.inr (Or.inr (Or.inr rfl)))) e he
  · simp only [List.mem_cons, List.not_mem_nil, or_false] at he
    rcases he with rfl | rfl | rfl | rfl
    · exact ⟨fun i t len h1 h2 => (by cases h1; cases h2), fun a h => by cases h⟩
    · exact ⟨fun i t len h1 => (by cases h1), fun a h => by cases h⟩
    · exact ⟨fun i t len h1 => (by cases h1), fun a h => by cases h⟩
    · exact ⟨fun i t len h1 h2 => (by cases h1; cases h2), fun a h => by cases h⟩

/-- The device has reset itself; three services were executed; the EEPROM is saved. -/
theorem exDone88_facts : exDone88.off = some false ∧ exDone88.flash 0x371 = 1#8 ∧
    savedAddress exDone88.flash = 0x1105#16 ∧ (executed (mainRun exWorld exGroup exStart88 exDownload).2).length = 3 := by
  decide +kernel

/-- The value the executed services leave at 0x0150. -/
theorem exDone88_value : lastWritten .bcu2 0x150 (executed (mainRun exWorld exGroup exStart88 exDownload).2)
    (exStart88.tl.app.ee 0x50) = 0x77#8 := by decide +kernel

example : (powerCycle exWorld exSetup 0 ⟨0#32, 0, 1⟩ true exDone88).tl.app.ee 0x50 = 0x77#8 := by
  rw [C88_after_restart_partial exWorld exGroup (fun _ _ _ => ⟨rfl, rfl, rfl⟩) exSetup _ exImage_clear 7 ⟨0#32, 0, 1⟩ true
    exDownload exDownload_only exStart88 rfl exDone88 rfl (Or.inl (by rw [exDone88_facts.1]; decide))
    (fun h => absurd (exDone88_facts.2.1.symm.trans h.2) (by decide)) 0 ⟨0#32, 0, 1⟩ true 0x50 (by decide) (by decide) ?_]
  · exact exDone88_value
  · rintro (h | ⟨h, -⟩ | ⟨⟨o, h, -⟩, -⟩)
    · revert h; unfold AtStart; decide
    · omega
    · exact absurd (exDone88_facts.2.1.symm.trans h.1.2) (by decide)

example : (mainRun exWorld exGroup exStart88 exDownload).1.tl.app.ee 0x50 = 0x77#8 := by
  have h := C88_contents_partial exWorld exGroup (fun _ _ _ => ⟨rfl, rfl, rfl⟩) exStart88 rfl exDownload exDownload_only
    0x50 (by decide) (by decide)
  exact h.trans exDone88_value

example : WritesTo .bcu2 (exFrom exConfig) 0x150 ∧ byteFor (exFrom exConfig) 0x150 = 0x99#8 := by decide +kernel
/-- A write that begins in front of the memory of a `MASK0701` does not get there. -/
example : ¬ WritesTo .mask0701 (exFrom [0x42#8, 0x82#8, 0x3e#8, 0xff#8, 0x11#8, 0x22#8]) 0x3f00 := by decide +kernel

end Verif.Dev
