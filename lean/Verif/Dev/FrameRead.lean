import Verif.Dev.MemLemmas
import Verif.Dev.Model

/-!
# Reading memory changes nothing

For every address, length and state of the virtual memory.
-/

namespace Verif.Dev

open Verif.Knx

variable {W : World}

theorem readMemPtr_st (n : Nat) : ∀ (s : MemMap.St) (a : Int),
    (MemMap.readMemPtr W.E W.mc false n s a).1 = s := by
  induction n with
  | zero => intro s a; rfl
  | succ n ih =>
    intro s a
    rw [readMemPtr_cons]
    split
    · exact readMem_same s a
    · dsimp only
      rw [ih]
      exact readMem_same s a

theorem mapOp_reads (s : MemMap.St) (p : Pos) (n : Nat) (hs : p.d.mapper = some s) :
    (mapOp W true s p n).1.d = p.d := by
  have h : (mapOp W true s p n).1.d =
      { p.d with mapper := some (MemMap.readMemPtr W.E W.mc false n s (p.addr : Int)).1 } := rfl
  rw [h, readMemPtr_st, ← hs]

theorem mapBytes_reads : ∀ (n : Nat) (p : Pos), (mapBytes W true n p).d = p.d := by
  intro n
  induction n with
  | zero => intro p; rfl
  | succ n ih =>
    intro p
    unfold mapBytes
    cases hm : p.d.mapper with
    | none => rfl
    | some s =>
      dsimp only
      by_cases h : MemMap.isMapped W.mc s (p.addr : Int) = true
      · rw [if_pos h]
        have c := mapOp_reads (W := W) s p 1 hm
        by_cases h2 : (mapOp W true s p 1).2 = true
        · rw [if_pos h2]
          exact (ih _).trans c
        · rw [if_neg h2]; exact c
      · rw [if_neg h]

theorem memIter_reads (fin : Nat) (p : Pos) : (memIter W true fin p).1.d = p.d := by
  have v1 : ∀ q : Pos, (viaMapper W true fin q).1.d = q.d := by
    intro q
    unfold viaMapper
    cases hm : q.d.mapper with
    | none => rfl
    | some s =>
      dsimp only
      by_cases h : (MemMap.isMapped W.mc s (q.addr : Int) && MemMap.isMapped W.mc s (fin : Int)) = true
      · rw [if_pos h]; exact mapOp_reads _ _ _ hm
      · rw [if_neg h]
        by_cases h2 : MemMap.isMapped W.mc s (q.addr : Int) = true
        · rw [if_pos h2]; exact mapBytes_reads ..
        · rw [if_neg h2]
  have v2 : ∀ q : Pos, (viaEeprom W true fin q).1.d = q.d := by
    intro q
    unfold viaEeprom
    repeat' split
    all_goals rfl
  have v3 : ∀ q : Pos, (viaRam W true fin q).1.d = q.d := by
    intro q
    unfold viaRam
    repeat' split
    all_goals rfl
  unfold memIter
  dsimp only
  have a1 := v1 { p with found := false }
  cases h1 : (viaMapper W true fin { p with found := false }).2 with
  | some b => exact a1
  | none =>
    dsimp only
    have b1 := v2 (viaMapper W true fin { p with found := false }).1
    cases h2 : (viaEeprom W true fin (viaMapper W true fin { p with found := false }).1).2 with
    | some b => exact b1.trans a1
    | none =>
      dsimp only
      exact (v3 _).trans (b1.trans a1)

theorem memLoop_reads (fin : Nat) : ∀ (n : Nat) (p : Pos), (memLoop W true fin n p).1.d = p.d := by
  intro n
  induction n with
  | zero => intro p; rfl
  | succ n ih =>
    intro p
    unfold memLoop
    by_cases h : p.found = true ∧ p.addr ≤ fin
    · rw [if_pos h]
      dsimp only
      have a1 := memIter_reads (W := W) fin p
      cases h2 : (memIter W true fin p).2 with
      | some b => exact a1
      | none =>
        dsimp only
        exact (ih _).trans a1
    · rw [if_neg h]

/-- Reading changes nothing. -/
theorem memOp_reads (d : Dev) (a : Nat) (buf : Nat → Byte) (off n : Nat) :
    (memOp W true d a buf off n).1 = d := by
  unfold memOp
  by_cases h : n = 0
  · rw [if_pos h]
  · rw [if_neg h]
    exact memLoop_reads (W := W) (a + n - 1) (n + 1) ⟨d, buf, a, off, true⟩

theorem memResponse_same (d : Dev) (a : Word) (n : Nat) (sb : Buf) :
    (memResponse W d a n sb).1 = if 10 + n ≤ bufSize then d else { d with undef := true } := by
  have h : (memReadPDU W d a.toNat sb n).1 = d := by
    unfold memReadPDU
    split
    · rfl
    · exact memOp_reads ..
  unfold memResponse
  dsimp only
  by_cases hb : 10 + n ≤ bufSize
  · rw [if_pos (by exact decide_eq_true hb), if_pos hb, h]
  · rw [if_neg (by simp [hb]), if_neg hb, h]

end Verif.Dev
