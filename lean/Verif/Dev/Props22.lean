import Verif.Dev.FrameRead
import Verif.Dev.MemProps
import Verif.MemMap.Props

/-!
# C22: memory services

The English property: a memory write request stores exactly the given bytes at the given addresses
and nothing else; if an address lies outside the device's RAM, EEPROM and mapped flash the request
is reported as failed; a following read returns the bytes written.

The theorems are named `_partial` because they need the conditions `MemCond`: at most 12 bytes (a
telegram holds no more, but the count field allows 15 and the code does not check it), a virtual
flash memory without `autoAddPage` and without pages over EEPROM or RAM, not the status byte's second
address, and not the load state addresses of the newer masks (for these see C24).  The findings at
the end show what happens otherwise.
-/

namespace Verif.Dev

open Verif.Knx
open Verif.MemMap (Ideal)

variable {W : World}

/-! ## Helper lemmas -/

theorem apply_memWrite (d : Dev) (t : Buf) (l : Nat) (sb : Buf) (h : apciCommand t = 0x280#16) :
    processApci W d t l sb =
      if (memWritePDU W d (makeWord (t 8) (t 9)).toNat t ((t 7).toNat % 16)).2 &&
          autoResponse W (memWritePDU W d (makeWord (t 8) (t 9)).toNat t ((t 7).toNat % 16)).1 then
        memResponse W (memWritePDU W d (makeWord (t 8) (t 9)).toNat t ((t 7).toNat % 16)).1
          (makeWord (t 8) (t 9)) ((t 7).toNat % 16) sb
      else ((memWritePDU W d (makeWord (t 8) (t 9)).toNat t ((t 7).toNat % 16)).1, sb, false) := by
  have e : defaultApci W d 0x280#16 t sb = memService W d 0x280#16 t sb := by
    unfold defaultApci
    rw [if_neg (by decide), if_pos (by decide)]
  have e2 : bcu2Apci W d 0x280#16 t l sb = defaultApci W d 0x280#16 t sb := by
    unfold bcu2Apci
    rw [if_neg (by decide), if_neg (by decide)]
  unfold processApci
  rw [h, e2, e, ite_self]
  unfold memService
  rw [if_pos rfl]

theorem apply_memRead (d : Dev) (t : Buf) (l : Nat) (sb : Buf) (h : apciCommand t = 0x200#16) :
    processApci W d t l sb =
      memResponse W d (makeWord (t 8) (t 9)) ((t 7).toNat % 16) sb := by
  have e : defaultApci W d 0x200#16 t sb = memService W d 0x200#16 t sb := by
    unfold defaultApci
    rw [if_neg (by decide), if_pos (by decide)]
  have e2 : bcu2Apci W d 0x200#16 t l sb = defaultApci W d 0x200#16 t sb := by
    unfold bcu2Apci
    rw [if_neg (by decide), if_neg (by decide)]
  unfold processApci
  rw [h, e2, e, ite_self]
  unfold memService
  rw [if_neg (by decide)]

theorem memWritePDU_plain (d : Dev) (a : Word) (hp : PlainAddress W a) (t : Buf) (n : Nat) :
    memWritePDU W d a.toNat t n =
      ((memOp W false d a.toNat t 10 n).1, (memOp W false d a.toNat t 10 n).2.2) := by
  unfold memWritePDU
  rw [if_neg (fun hc => (hp ⟨hc.1, hc.2.1⟩).1 hc.2.2)]

theorem memReadPDU_plain (d : Dev) (a : Word) (hp : PlainAddress W a) (sb : Buf) (n : Nat) :
    memReadPDU W d a.toNat sb n = memOp W true d a.toNat sb 10 n := by
  unfold memReadPDU
  rw [if_neg (fun hc => (hp ⟨hc.1, hc.2.1⟩).2 hc.2.2)]

theorem setApci_mem (b : Buf) (n : Nat) (hn : n ≤ 12) :
    (setApciCommand b 0x240#16 (BitVec.ofNat 8 n)) 6 = 0x02#8 ∧
    ((setApciCommand b 0x240#16 (BitVec.ofNat 8 n)) 7).toNat = 0x40 + n ∧
    ∀ j, j ≠ 6 → j ≠ 7 → (setApciCommand b 0x240#16 (BitVec.ofNat 8 n)) j = b j := by
  refine ⟨rfl, ?_, fun j h6 h7 => ?_⟩
  · have : ∀ n, n < 13 → ((0x40#8 ||| BitVec.ofNat 8 n)).toNat = 0x40 + n := by decide
    exact this n (by omega)
  · unfold setApciCommand
    rw [upd_ne _ _ _ _ h7, upd_ne _ _ _ _ h6]

/-- The response to a read of `n` bytes. -/
theorem memResp_build (b : Buf) (a : Word) (k : Nat) (hk12 : k ≤ 12) (data : List Byte)
    (hl : data.length = k) (hdat : ∀ i, i < k → b (10 + i) = data.getD i 0#8) :
    MemResponse (upd (upd (setApciCommand (upd b 5 (BitVec.ofNat 8 (0x60 + k + 3)))
      0x240#16 (BitVec.ofNat 8 k)) 8 (highByte a)) 9 (lowByte a)) a data := by
  obtain ⟨s1, s2, s3⟩ := setApci_mem (upd b 5 (BitVec.ofNat 8 (0x60 + k + 3))) k hk12
  constructor
  · rw [upd_ne _ _ _ _ (by decide), upd_ne _ _ _ _ (by decide), s3 _ (by decide) (by decide), upd_same,
      BitVec.toNat_ofNat]
    omega
  · rw [upd_ne _ _ _ _ (by decide), upd_ne _ _ _ _ (by decide), s1]
  · rw [upd_ne _ _ _ _ (by decide), upd_ne _ _ _ _ (by decide), s2, hl]
  · rw [upd_ne _ _ _ _ (by decide), upd_same, upd_same, makeWord_high_low]
  · intro i hi
    rw [upd_ne _ _ _ _ (by omega), upd_ne _ _ _ _ (by omega), s3 _ (by omega) (by omega),
      upd_ne _ _ _ _ (by omega)]
    exact hdat i (by omega)

theorem memResponse_spec {d : Dev} {a : Word} {n : Nat} (hc : MemCond W d a n) (sb : Buf) :
    (memResponse W d a n sb).1 = d ∧ (memResponse W d a n sb).2.2 = true ∧
    (∀ data, data.length = n → n ≠ 0 →
      (∀ i, i < n → space W d (a.toNat + i) = some (data.getD i 0#8)) →
      MemResponse (memResponse W d a n sb).2.1 a data) ∧
    (n = 0 ∨ ¬ AllPresent W d a n → MemResponse (memResponse W d a n sb).2.1 a []) := by
  obtain ⟨r1, r2, r3, r4⟩ := memOp_read hc.mapper a.toNat sb 10 n (by have := hc.short; omega) hc.alias
  have hshort := hc.short
  obtain ⟨b, hb⟩ : ∃ b, (memOp W true d a.toNat sb 10 n).2.1 = b := ⟨_, rfl⟩
  obtain ⟨k, hk⟩ : ∃ k, (if (memOp W true d a.toNat sb 10 n).2.2 then n else 0) = k := ⟨_, rfl⟩
  have hk12 : k ≤ 12 := by
    rw [← hk]
    split <;> omega
  have e : memResponse W d a n sb = (d, upd (upd (setApciCommand (upd b 5 (BitVec.ofNat 8 (0x60 + k + 3)))
      0x240#16 (BitVec.ofNat 8 k)) 8 (highByte a)) 9 (lowByte a), true) := by
    unfold memResponse
    rw [memReadPDU_plain d a hc.plain]
    dsimp only
    rw [r1, hb, hk, if_pos (by rw [decide_eq_true_iff]; unfold bufSize; omega)]
  have hresp : ∀ data, data.length = k → (∀ i, i < k → b (10 + i) = data.getD i 0#8) →
      MemResponse (upd (upd (setApciCommand (upd b 5 (BitVec.ofNat 8 (0x60 + k + 3)))
      0x240#16 (BitVec.ofNat 8 k)) 8 (highByte a)) 9 (lowByte a)) a data :=
    fun data hl hdat => memResp_build b a k hk12 data hl hdat
  rw [e]
  refine ⟨rfl, rfl, fun data hl hn hs => ?_, fun h => ?_⟩
  · have hok : (memOp W true d a.toNat sb 10 n).2.2 = true :=
      r2.2 ⟨by omega, fun i hi => by rw [hs i hi]; rfl⟩
    rw [hok, if_pos rfl] at hk
    apply hresp data (by omega)
    intro i hi
    have h4 := r4 hok i (by omega)
    rw [hs i (by omega), hb] at h4
    exact (Option.some.inj h4).symm
  · have hno : (memOp W true d a.toNat sb 10 n).2.2 = false := by
      cases hx : (memOp W true d a.toNat sb 10 n).2.2 with
      | false => rfl
      | true =>
        have := r2.1 hx
        rcases h with h | h
        · omega
        · exact absurd this.2 h
    rw [hno, if_neg (by decide)] at hk
    exact hresp [] (by simpa using hk) (fun i hi => by omega)

/-! ## The property -/

/-- C22 (partial): a memory write request changes the address space exactly as storing its bytes one
after the other does, up to the first address without memory; it changes nothing else. -/
theorem C22_write_partial (d : Dev) (t : Buf) (l : Nat) (sb : Buf) (a : Word) (data : List Byte)
    (ht : MemWriteRequest t a data) (hc : MemCond W d a data.length) :
    Written W d (processApci W d t l sb).1 a.toNat data := by
  obtain ⟨w, _⟩ := memOp_write hc.mapper a.toNat t 10 data (by have := hc.short; omega) hc.alias ht.data
  rw [apply_memWrite d t l sb ht.apci, ht.addr, ht.count, memWritePDU_plain d a hc.plain]
  dsimp only
  by_cases hr : ((memOp W false d a.toNat t 10 data.length).2.2 &&
      autoResponse W (memOp W false d a.toNat t 10 data.length).1) = true
  · rw [if_pos hr, (memResponse_spec ⟨w.mapper, hc.alias, hc.plain, hc.short⟩ sb).1]
    exact w
  · rw [if_neg hr]
    exact w

/-- C22 (partial): if all addresses exist, the bytes stand there afterwards and every other address
is unchanged. -/
theorem C22_stored_partial (d : Dev) (t : Buf) (l : Nat) (sb : Buf) (a : Word) (data : List Byte)
    (ht : MemWriteRequest t a data) (hc : MemCond W d a data.length)
    (hp : AllPresent W d a data.length) (b : Nat) :
    space W (processApci W d t l sb).1 b =
      if a.toNat ≤ b ∧ b < a.toNat + data.length then some (data.getD (b - a.toNat) 0#8)
      else space W d b := by
  rw [(C22_write_partial d t l sb a data ht hc).space b]
  exact (writeBytes_spec data (space W d) a.toNat data.length (Nat.le_refl _) hp (Or.inl rfl)).2 b

/-- C22 (partial): the write is reported as successful exactly if there is something to write and
all addresses exist. -/
theorem C22_reported_partial (d : Dev) (t : Buf) (a : Word) (data : List Byte)
    (ht : MemWriteRequest t a data) (hc : MemCond W d a data.length) :
    (memWritePDU W d a.toNat t data.length).2 = true ↔ data ≠ [] ∧ AllPresent W d a data.length := by
  obtain ⟨_, w⟩ := memOp_write hc.mapper a.toNat t 10 data (by have := hc.short; omega) hc.alias ht.data
  rw [memWritePDU_plain d a hc.plain]
  dsimp only
  rw [w]
  constructor
  · rintro ⟨h1, h2⟩
    refine ⟨h1, ?_⟩
    -- the first missing address, if any, makes `writeBytes` fail
    intro i hi
    cases hx : (space W d (a.toNat + i)).isSome with
    | true => rfl
    | false =>
      exfalso
      have : ∃ k, k < data.length ∧ (∀ j, j < k → (space W d (a.toNat + j)).isSome = true) ∧
          (space W d (a.toNat + k)).isSome = false := by
        clear h1 h2 w hc ht
        induction i using Nat.strongRecOn with
        | ind i ih =>
          by_cases hall : ∀ j, j < i → (space W d (a.toNat + j)).isSome = true
          · exact ⟨i, hi, hall, hx⟩
          · obtain ⟨j, hj⟩ := Classical.not_forall.1 hall
            obtain ⟨hji, hjn⟩ := Classical.not_imp.1 hj
            exact ih j hji (by omega) (by simpa using hjn)
      obtain ⟨k, k1, k2, k3⟩ := this
      have := (writeBytes_spec data (space W d) a.toNat k (by omega) k2 (Or.inr k3)).1
      rw [h2] at this
      have := decide_eq_true_iff.1 this.symm
      omega
  · rintro ⟨h1, h2⟩
    exact ⟨h1, by
      rw [(writeBytes_spec data (space W d) a.toNat data.length (Nat.le_refl _) h2 (Or.inl rfl)).1]
      exact decide_eq_true rfl⟩

/-- C22 (partial): the answer to a write request.  Without the device's auto response there is none;
with it, a successful write is answered with the bytes that now stand there, a failed one not at
all. -/
theorem C22_write_response_partial (d : Dev) (t : Buf) (l : Nat) (sb : Buf) (a : Word)
    (data : List Byte) (ht : MemWriteRequest t a data) (hc : MemCond W d a data.length) :
    ((processApci W d t l sb).2.2 = true ↔
      (data ≠ [] ∧ AllPresent W d a data.length) ∧ autoResponse W (processApci W d t l sb).1 = true) ∧
    ((processApci W d t l sb).2.2 = true → MemResponse (processApci W d t l sb).2.1 a data) := by
  have hw := C22_write_partial d t l sb a data ht hc
  have hrep := C22_reported_partial d t a data ht hc
  obtain ⟨w, _⟩ := memOp_write hc.mapper a.toNat t 10 data (by have := hc.short; omega) hc.alias ht.data
  have hst := C22_stored_partial d t l sb a data ht hc
  rw [apply_memWrite d t l sb ht.apci, ht.addr, ht.count] at hst ⊢
  obtain ⟨r, hr⟩ : ∃ r, memWritePDU W d a.toNat t data.length = r := ⟨_, rfl⟩
  rw [hr] at hrep hst ⊢
  have hr1 : r.1 = (memOp W false d a.toNat t 10 data.length).1 := by
    rw [← hr, memWritePDU_plain d a hc.plain]
  have hc' : MemCond W r.1 a data.length := ⟨by rw [hr1]; exact w.mapper, hc.alias, hc.plain, hc.short⟩
  obtain ⟨m1, m2, m3, _⟩ := memResponse_spec hc' sb
  by_cases hx : (r.2 && autoResponse W r.1) = true
  · rw [if_pos hx] at hst ⊢
    have hx2 := hx
    rw [Bool.and_eq_true] at hx2
    have hp := hrep.1 hx2.1
    rw [m1] at hst ⊢
    rw [m2]
    refine ⟨⟨fun _ => ⟨hp, hx2.2⟩, fun _ => rfl⟩, fun _ => ?_⟩
    apply m3 data rfl (fun h => hp.1 (List.eq_nil_of_length_eq_zero h))
    intro i hi
    rw [hst hp.2, if_pos ⟨by omega, by omega⟩]
    have e : a.toNat + i - a.toNat = i := by omega
    rw [e]
  · rw [if_neg hx]
    refine ⟨⟨fun h => (by cases h), fun h => ?_⟩, fun h => (by cases h)⟩
    exact absurd (by rw [Bool.and_eq_true]; exact ⟨hrep.2 h.1, h.2⟩) hx

/-- C22 (partial): a read request changes nothing and is answered with the bytes that stand at the
addresses, or with the count 0 if one of them does not exist. -/
theorem C22_read_partial (d : Dev) (t : Buf) (l : Nat) (sb : Buf) (a : Word) (n : Nat)
    (ht : MemReadRequest t a n) (hc : MemCond W d a n) :
    (processApci W d t l sb).1 = d ∧ (processApci W d t l sb).2.2 = true ∧
    (∀ data, data.length = n → n ≠ 0 →
      (∀ i, i < n → space W d (a.toNat + i) = some (data.getD i 0#8)) →
      MemResponse (processApci W d t l sb).2.1 a data) ∧
    (n = 0 ∨ ¬ AllPresent W d a n → MemResponse (processApci W d t l sb).2.1 a []) := by
  rw [apply_memRead d t l sb ht.apci, ht.addr, ht.count]
  exact memResponse_spec hc sb

/-- C22 (partial): a read after a write of the same range returns the bytes written. -/
theorem C22_write_then_read_partial (d : Dev) (t t' : Buf) (l l' : Nat) (sb sb' : Buf) (a : Word)
    (data : List Byte) (ht : MemWriteRequest t a data) (ht' : MemReadRequest t' a data.length)
    (hc : MemCond W d a data.length) (hne : data ≠ []) (hp : AllPresent W d a data.length) :
    MemResponse (processApci W (processApci W d t l sb).1 t' l' sb').2.1 a data := by
  have hw := C22_write_partial d t l sb a data ht hc
  have hs := C22_stored_partial d t l sb a data ht hc hp
  refine (C22_read_partial _ t' l' sb' a data.length ht'
    ⟨hw.mapper, hc.alias, hc.plain, hc.short⟩).2.2.1 data rfl
      (fun h => hne (List.eq_nil_of_length_eq_zero h)) (fun i hi => ?_)
  rw [hs, if_pos ⟨by omega, by omega⟩]
  have e : a.toNat + i - a.toNat = i := by omega
  rw [e]

/-- A write request with the values the transport layer passes along. -/
structure WriteCall where
  tel : Buf
  telLen : Nat
  sendBuf : Buf
  addr : Word
  data : List Byte

/-- C22 (partial): after any sequence of write requests the address space is what storing all their
bytes in order makes of it. -/
theorem C22_history_partial (calls : List WriteCall) : ∀ (d : Dev), MapperOk W d →
    (∀ c ∈ calls, MemWriteRequest c.tel c.addr c.data ∧ NotStatusAlias W c.addr.toNat c.data.length ∧
      PlainAddress W c.addr ∧ c.data.length ≤ 12) →
    ∀ b, space W (calls.foldl (fun d c => (processApci W d c.tel c.telLen c.sendBuf).1) d) b =
      calls.foldl (fun m c => (writeBytes m c.addr.toNat c.data).1) (space W d) b := by
  induction calls with
  | nil => intro d _ _ b; rfl
  | cons c cs ih =>
    intro d hm hcs b
    obtain ⟨h1, h2, h3, h4⟩ := hcs c (List.mem_cons_self ..)
    have hw := C22_write_partial d c.tel c.telLen c.sendBuf c.addr c.data h1 ⟨hm, h2, h3, h4⟩
    rw [List.foldl_cons, List.foldl_cons, ih _ hw.mapper (fun x hx => hcs x (List.mem_cons_of_mem _ hx))]
    have : space W (processApci W d c.tel c.telLen c.sendBuf).1 =
        (writeBytes (space W d) c.addr.toNat c.data).1 := funext hw.space
    rw [this]

/-- A memory read changes nothing, for every address, count, device and virtual memory; with a count of
14 or 15 it is undefined (see `C22_long_read`). -/
theorem C22_read_changes_nothing (d : Dev) (t : Buf) (l : Nat) (sb : Buf)
    (h : apciCommand t = 0x200#16) :
    (processApci W d t l sb).1 =
      if (t 7).toNat % 16 ≤ 13 then d else { d with undef := true } := by
  rw [apply_memRead d t l sb h, memResponse_same]
  by_cases hn : (t 7).toNat % 16 ≤ 13
  · rw [if_pos hn, if_pos (by unfold bufSize; omega)]
  · rw [if_neg hn, if_neg (by unfold bufSize; omega)]

/-! ## Findings -/

/-- C22 (finding): on the newer masks the system status can be written at address 0x60, where the
device has no memory: the one byte write there is reported as successful and changes the byte at
0x65c. -/
theorem C22_status_alias (d : Dev) (hm : d.mapper = none) (hk : W.kind = .mask0701) (x : Byte)
    (t : Buf) (hx : t 10 = x) :
    space W d 0x60 = none ∧ (memWritePDU W d 0x60 t 1).2 = true ∧
    space W (memWritePDU W d 0x60 t 1).1 0x65c = some x := by
  cases W with
  | mk kind E mc =>
    dsimp only at hk
    subst hk
    have e : memWritePDU ⟨.mask0701, E, mc⟩ d 0x60 t 1 = ({ d with status := t 10 }, true) := by
      have h1 : memOp ⟨.mask0701, E, mc⟩ false d 0x60 t 10 1 = ({ d with status := t 10 }, t, true) := by
        have h2 : memIter ⟨.mask0701, E, mc⟩ false 0x60 ⟨d, t, 0x60, 10, true⟩ =
            (⟨{ d with status := t 10 }, t, 0x60, 10, false⟩, some true) := by
          have v1 : viaMapper ⟨.mask0701, E, mc⟩ false 0x60 ⟨d, t, 0x60, 10, false⟩ =
              (⟨d, t, 0x60, 10, false⟩, none) := by
            unfold viaMapper
            dsimp only
            rw [hm]
          have v2 : viaEeprom ⟨.mask0701, E, mc⟩ false 0x60 ⟨d, t, 0x60, 10, false⟩ =
              (⟨d, t, 0x60, 10, false⟩, none) := rfl
          unfold memIter
          dsimp only
          rw [v1]
          dsimp only
          rw [v2]
          rfl
        have h3 : memOp ⟨.mask0701, E, mc⟩ false d 0x60 t 10 1 =
            match (memIter ⟨.mask0701, E, mc⟩ false 0x60 ⟨d, t, 0x60, 10, true⟩).2 with
            | some b => ((memIter ⟨.mask0701, E, mc⟩ false 0x60 ⟨d, t, 0x60, 10, true⟩).1.d,
                (memIter ⟨.mask0701, E, mc⟩ false 0x60 ⟨d, t, 0x60, 10, true⟩).1.buf, b)
            | none =>
              let r := memLoop ⟨.mask0701, E, mc⟩ false 0x60 1
                (memIter ⟨.mask0701, E, mc⟩ false 0x60 ⟨d, t, 0x60, 10, true⟩).1
              (r.1.d, r.1.buf, r.2) := by
          have h4 : ∀ n p, memLoop ⟨.mask0701, E, mc⟩ false 0x60 (n + 1) p =
              if p.found ∧ p.addr ≤ 0x60 then
                (match (memIter ⟨.mask0701, E, mc⟩ false 0x60 p).2 with
                | some b => ((memIter ⟨.mask0701, E, mc⟩ false 0x60 p).1, b)
                | none => memLoop ⟨.mask0701, E, mc⟩ false 0x60 n
                    (memIter ⟨.mask0701, E, mc⟩ false 0x60 p).1)
              else (p, 0x60 + 1 == p.addr) := fun n p => rfl
          unfold memOp
          rw [if_neg (by decide)]
          show (let r := memLoop ⟨.mask0701, E, mc⟩ false 0x60 2 ⟨d, t, 0x60, 10, true⟩
            (r.1.d, r.1.buf, r.2)) = _
          rw [h4, if_pos ⟨rfl, Nat.le_refl _⟩, h2]
        rw [h3, h2]
      unfold memWritePDU
      rw [if_neg (fun hc => absurd hc.2.2 (by decide)), h1]
    rw [e]
    refine ⟨?_, rfl, ?_⟩
    · unfold space mappedAt
      rw [hm, if_neg (fun h => (by cases h)),
        if_neg (show ¬ (Kind.mask0701.eeStart ≤ 0x60 ∧ 0x60 < Kind.mask0701.eeStart + Kind.mask0701.eeSize)
          by decide),
        if_neg (show ¬ (Kind.mask0701.ramStart ≤ 0x60 ∧
          0x60 < Kind.mask0701.ramStart + Kind.mask0701.ramSize) by decide)]
    · unfold space mappedAt
      dsimp only
      rw [hm, hx, if_neg (fun h => (by cases h))]
      exact (if_neg (by decide)).trans ((if_pos (by decide)).trans (by rw [if_pos (by decide)]))

/-- C22 (finding): with a virtual memory that has `autoAddPage` set, no memory write reaches EEPROM
or RAM any more. -/
theorem C22_autoAddPage_hides (d : Dev) (s : MemMap.St) (hm : d.mapper = some s)
    (ha : W.mc.autoAddPage = true) (a : Nat) (t : Buf) (off len : Nat) :
    (memOp W false d a t off len).1.ee = d.ee ∧ (memOp W false d a t off len).1.ram = d.ram ∧
    (memOp W false d a t off len).1.status = d.status := by
  have hmap : ∀ x, MemMap.isMapped W.mc s x = true := fun x => by
    unfold MemMap.isMapped; rw [ha]; rfl
  unfold memOp
  by_cases h0 : len = 0
  · rw [if_pos h0]; exact ⟨rfl, rfl, rfl⟩
  · rw [if_neg h0]
    have e : memLoop W false (a + len - 1) (len + 1) ⟨d, t, a, off, true⟩ =
        (let r := mapOp W false s ⟨d, t, a, off, false⟩ (a + len - 1 + 1 - a); (r.1, r.2)) := by
      have h1 : viaMapper W false (a + len - 1) ⟨d, t, a, off, false⟩ =
          ((mapOp W false s ⟨d, t, a, off, false⟩ (a + len - 1 + 1 - a)).1,
            some (mapOp W false s ⟨d, t, a, off, false⟩ (a + len - 1 + 1 - a)).2) := by
        unfold viaMapper
        dsimp only
        rw [hm]
        dsimp only
        rw [hmap, hmap, Bool.and_self, if_pos rfl]
      have h2 : memIter W false (a + len - 1) ⟨d, t, a, off, true⟩ =
          ((mapOp W false s ⟨d, t, a, off, false⟩ (a + len - 1 + 1 - a)).1,
            some (mapOp W false s ⟨d, t, a, off, false⟩ (a + len - 1 + 1 - a)).2) := by
        unfold memIter
        dsimp only
        rw [h1]
      unfold memLoop
      rw [if_pos ⟨rfl, by dsimp only; omega⟩]
      dsimp only
      rw [h2]
    rw [e]
    exact ⟨rfl, rfl, rfl⟩

/-- C22 (finding): a read of 13, 14 or 15 existing bytes is answered with a wrong length: the count
spills into the hop count, the length field says 0, 1 or 2. -/
theorem C22_long_read (d : Dev) (a : Word) (n : Nat) (sb : Buf) (hn : 13 ≤ n ∧ n ≤ 15)
    (hok : (memReadPDU W d a.toNat sb n).2.2 = true) :
    ((memResponse W d a n sb).2.1 5).toNat = 0x70 + (n - 13) ∧
    ((memResponse W d a n sb).1.undef = true ∨ n = 13) := by
  have e5 : (memResponse W d a n sb).2.1 5 = BitVec.ofNat 8 (0x60 + n + 3) := by
    unfold memResponse
    dsimp only
    rw [hok, if_pos rfl, upd_ne _ _ _ _ (by decide), upd_ne _ _ _ _ (by decide)]
    unfold setApciCommand
    rw [upd_ne _ _ _ _ (by decide), upd_ne _ _ _ _ (by decide), upd_same]
  constructor
  · rw [e5, BitVec.toNat_ofNat]; omega
  · by_cases h13 : n = 13
    · exact Or.inr h13
    · left
      unfold memResponse
      dsimp only
      rw [if_neg (by rw [decide_eq_true_iff]; unfold bufSize; omega)]

/-- C22 (finding): the length of the telegram plays no role: a write request that announces more
bytes than its telegram carries stores whatever an earlier telegram has left in the buffer. -/
theorem C22_count_trusted (d : Dev) (t : Buf) (l l' : Nat) (sb : Buf)
    (h : apciCommand t = 0x280#16) : processApci W d t l sb = processApci W d t l' sb := by
  rw [apply_memWrite d t l sb h, apply_memWrite d t l' sb h]

/-! ## The hypotheses are met -/

/-- A BCU2 without virtual memory. -/
def exWorld : World := ⟨.bcu2, MemMap.dEnv, MemMap.dCfgFixed⟩

/-- Some state of it. -/
def exDev : Dev where
  ee := fun i => BitVec.ofNat 8 i
  ram := fun i => BitVec.ofNat 8 (7 * i)
  status := 0x2e#8
  runState := 1#8
  enabled := true
  eeModified := false
  mapper := none
  ownAddr := 0x1101#16
  comTabStatic := 0#16
  restart := .none
  undef := false

/-- A telegram with the given bytes from byte 6 on. -/
def exTel (l : List Byte) : Buf := fun i => if i < 6 then 0#8 else l.getD (i - 6) 0#8

/-- Write three bytes at 0x0fe: two in the RAM, one in the EEPROM. -/
def exWrite : Buf := exTel [0x02#8, 0x83#8, 0x00#8, 0xfe#8, 0x11#8, 0x22#8, 0x33#8]

def exRead : Buf := exTel [0x02#8, 0x03#8, 0x00#8, 0xfe#8]

example : MemWriteRequest exWrite 0x00fe#16 [0x11#8, 0x22#8, 0x33#8] :=
  ⟨by decide, by decide, by decide, by decide⟩
example : MemReadRequest exRead 0x00fe#16 3 := ⟨by decide, by decide, by decide⟩
example : MemCond exWorld exDev 0x00fe#16 3 :=
  ⟨fun s hs => (by cases hs), Or.inl rfl, fun h => absurd rfl h.2, by decide⟩
example : AllPresent exWorld exDev 0x00fe#16 3 := by
  unfold AllPresent; decide
/-- The theorem gives the content of the EEPROM's first byte. -/
example : space exWorld (processApci exWorld exDev exWrite 14 (fun _ => 0#8)).1 0x100 = some 0x33#8 := by
  rw [C22_stored_partial exDev exWrite 14 _ 0x00fe#16 [0x11#8, 0x22#8, 0x33#8]
    ⟨by decide, by decide, by decide, by decide⟩
    ⟨fun s hs => (by cases hs), Or.inl rfl, fun h => absurd rfl h.2, by decide⟩
    (by unfold AllPresent; decide)]
  decide
/-- A write into nowhere (0x0600 on a BCU2) is reported as failed. -/
example : ¬ AllPresent exWorld exDev 0x0600#16 1 := by unfold AllPresent; decide
/-- A device with virtual memory and two mapped pages far from EEPROM and RAM meets the condition. -/
def exMapped : Dev := { exDev with
  mapper := some (MemMap.run MemMap.dEnv MemMap.dCfgFixed
    (MemMap.ctor MemMap.dCfgFixed ⟨MemMap.dFlash, 0⟩) MemMap.dOpsFixed).1 }

theorem exMapped_ok : MapperOk exWorld exMapped := by
  have hrep : Rep exWorld exMapped
      (MemMap.Ideal.run false (MemMap.emptyIdeal MemMap.dCfgFixed) MemMap.dOpsFixed).1 :=
    ⟨fun _ => rfl, MemMap.dAreaFixed, rfl, MemMap.dFlash, MemMap.dOpsFixed, MemMap.dFreshFixed,
      MemMap.dOpsFixed_ok, rfl, rfl⟩
  apply rep_mapperOk hrep
  have h : ∀ v, v < 16 → (MemMap.Ideal.run false (MemMap.emptyIdeal MemMap.dCfgFixed)
      MemMap.dOpsFixed).1.mapped v = false := by decide +kernel
  intro a ha hm
  have hlt : a < 16 * 256 := by
    rcases ha with ha | ha
    · have : a < Kind.bcu2.eeStart + Kind.bcu2.eeSize := ha.2
      exact Nat.lt_of_lt_of_le this (by decide)
    · have : a < Kind.bcu2.ramStart + Kind.bcu2.ramSize := ha.2
      exact Nat.lt_of_lt_of_le this (by decide)
  have := h (a / 256) (by omega)
  rw [hm.2] at this
  cases this

example : mappedAt exWorld exMapped 0x4105 = true := by decide +kernel
example : MemCond exWorld exMapped 0x4105#16 3 :=
  ⟨exMapped_ok, Or.inl rfl, fun h => absurd rfl h.2, by decide⟩

end Verif.Dev
