import Verif.Boot.BufLemmas
import Verif.Boot.DecompSpec

/-! Simulation of the command level by the byte automaton. -/

namespace Verif.Boot.Decomp
open Verif.Iap Spec

theorem header_facts (copy long : Bool) (k : Nat) (hk : k < 64) :
    isCopy (header copy long k) = copy ∧ (header copy long k &&& 0x40#8 == 0x40#8) = long ∧
    (header copy long k &&& 0x3F#8).toNat = k := by
  have : ∀ (copy long : Bool) (k : Fin 64), isCopy (header copy long k.val) = copy ∧
      (header copy long k.val &&& 0x40#8 == 0x40#8) = long ∧
      (header copy long k.val &&& 0x3F#8).toNat = k.val := by decide +kernel
  exact this copy long ⟨k, hk⟩

theorem addr_facts (ram : Bool) (k : Nat) (hk : k < 128) :
    (BitVec.ofNat 8 ((if ram then 128 else 0) + k) &&& 0x80#8 == 0x80#8) = ram ∧
    (BitVec.ofNat 8 ((if ram then 128 else 0) + k) &&& 0x7F#8).toNat = k := by
  have : ∀ (ram : Bool) (k : Fin 128),
      (BitVec.ofNat 8 ((if ram then 128 else 0) + k.val) &&& 0x80#8 == 0x80#8) = ram ∧
      (BitVec.ofNat 8 ((if ram then 128 else 0) + k.val) &&& 0x7F#8).toNat = k.val := by decide +kernel
  exact this ram ⟨k, hk⟩

theorem putBytes_append (E : Env) (f : Nat → Byte) (a : List Byte) : ∀ (d : State) (b : List Byte),
    putBytes E f d (a ++ b) = (putBytes E f d a).bind (fun d => putBytes E f d b) := by
  induction a with
  | nil => intro d b; rfl
  | cons x a ih =>
    intro d b
    rw [List.cons_append]
    show (putByte E f d x).bind (fun d => putBytes E f d (a ++ b))
      = ((putByte E f d x).bind (fun d => putBytes E f d a)).bind (fun d => putBytes E f d b)
    cases putByte E f d x with
    | none => rfl
    | some d1 => exact ih d1 b

/-- The state after a complete copy command: only the command buffer has changed. -/
theorem copy_header {E : Env} {f : Nat → Byte} {d : State} (hp : d.phase = .expectCommandByte)
    (long ram : Bool) (off n : Nat) (hn : n < (if long then 16384 else 64)) (hoff : off < 2 ^ 23) :
    ∃ cb l e, putBytes E f d (lengthBytes true long n ++ addressBytes ram off)
        = doCopy E f { d with cmdBuffer := cb, cmdBufferLength := l, expectedCmdLength := e,
                              phase := .expectCommandParams } ∧
      (∀ x : State, x.cmdBuffer = cb → getLength x = n ∧ getCopyAddress x = off ∧ isCopyFromRam x = ram) := by
  cases long with
  | true =>
    simp only [if_true] at hn
    obtain ⟨f1, f2, f3⟩ := header_facts true true (n / 256) (by omega)
    obtain ⟨g1, g2⟩ := addr_facts ram (off / 65536) (by omega)
    refine ⟨store (store (store (store (store d.cmdBuffer 0 (header true true (n / 256))) 1
      (BitVec.ofNat 8 n)) 2 (BitVec.ofNat 8 ((if ram then 128 else 0) + off / 65536))) 3
      (BitVec.ofNat 8 (off / 256))) 4 (BitVec.ofNat 8 off), 5, 5, ?_, ?_⟩
    · have hcl : cmdLength (header true true (n / 256)) = 5 := by unfold cmdLength; rw [f1, f2]; rfl
      simp only [lengthBytes, addressBytes, if_true, List.cons_append, List.nil_append, putBytes]
      unfold putByte
      rw [hp]
      simp [hcl, store, f1]
    · intro x hx
      unfold getLength getCopyAddress isCopyFromRam isLong
      rw [hx]
      simp only [store, reduceIte, Nat.reduceEqDiff, Nat.zero_ne_one, f2, f3, g1, g2, Nat.succ_ne_zero]
      refine ⟨?_, ?_, trivial⟩
      · simp only [BitVec.toNat_ofNat]; omega
      · simp only [BitVec.toNat_ofNat]; omega
  | false =>
    simp only [Bool.false_eq_true, if_false] at hn
    obtain ⟨f1, f2, f3⟩ := header_facts true false n hn
    obtain ⟨g1, g2⟩ := addr_facts ram (off / 65536) (by omega)
    refine ⟨store (store (store (store d.cmdBuffer 0 (header true false n)) 1
      (BitVec.ofNat 8 ((if ram then 128 else 0) + off / 65536))) 2
      (BitVec.ofNat 8 (off / 256))) 3 (BitVec.ofNat 8 off), 4, 4, ?_, ?_⟩
    · have hcl : cmdLength (header true false n) = 4 := by unfold cmdLength; rw [f1, f2]; rfl
      simp only [lengthBytes, addressBytes, Bool.false_eq_true, if_false, List.cons_append, List.nil_append,
        putBytes]
      unfold putByte
      rw [hp]
      simp [hcl, store, f1]
    · intro x hx
      unfold getLength getCopyAddress isCopyFromRam isLong
      rw [hx]
      simp only [store, reduceIte, Nat.reduceEqDiff, Nat.zero_ne_one, f2, f3, g1, g2, Nat.succ_ne_zero,
        Bool.false_eq_true]
      refine ⟨trivial, ?_, trivial⟩
      simp only [BitVec.toNat_ofNat]; omega

/-- What the automaton has done after output `out`. -/
structure Done (d d' : State) (out : List Byte) : Prop where
  phase : d'.phase = .expectCommandByte
  count : d'.bytesToFlash = d.bytesToFlash + out.length
  data : bytesAt d'.scratchpad 0 d'.bytesToFlash = bytesAt d.scratchpad 0 d.bytesToFlash ++ out
  rest : ∀ i, d'.bytesToFlash ≤ i → d'.scratchpad i = d.scratchpad i
  old : d'.oldPages = d.oldPages
  base : d'.startAddrOfFlash = d.startAddrOfFlash
  page : d'.startAddrOfPageToBeFlashed = d.startAddrOfPageToBeFlashed

theorem Done.trans {d d' d'' : State} {a b : List Byte} (h1 : Done d d' a) (h2 : Done d' d'' b) :
    Done d d'' (a ++ b) :=
  ⟨h2.phase, by rw [h2.count, h1.count, List.length_append, Nat.add_assoc],
   by rw [h2.data, h1.data, List.append_assoc],
   fun i hi => by rw [h2.rest i hi, h1.rest i (by rw [h2.count] at hi; omega)],
   by rw [h2.old, h1.old], by rw [h2.base, h1.base], by rw [h2.page, h1.page]⟩

theorem blit_done (m src : Nat → Byte) (pos from_ n : Nat) :
    bytesAt (blit m pos src from_ n) 0 (pos + n)
      = bytesAt m 0 pos ++ (List.range n).map (fun i => src (from_ + i)) := by
  rw [bytesAt_append, Nat.zero_add]
  congr 1
  · apply bytesAt_congr
    intro i hi
    unfold blit
    rw [if_neg (by omega)]
  · unfold bytesAt
    apply List.map_congr_left
    intro i hi
    have := List.mem_range.mp hi
    unfold blit
    rw [if_pos (by omega), show pos + i - pos = i by omega]

theorem copy_done {E : Env} {f : Nat → Byte} {d : State} (hp : d.phase = .expectCommandByte)
    (long ram : Bool) (off n : Nat) (hn : n < (if long then 16384 else 64)) (hoff : off < 2 ^ 23)
    (hfit : d.bytesToFlash + n ≤ 256)
    (hin : if ram then off + n ≤ 512 else d.startAddrOfFlash.toNat + off + n ≤ E.top) :
    ∃ d', putBytes E f d (lengthBytes true long n ++ addressBytes ram off) = some d' ∧
      Done d d' ((List.range n).map (fun i =>
        if ram then d.oldPages (off + i) else f (d.startAddrOfFlash.toNat + off + i))) := by
  obtain ⟨cb, l, e, h1, h2⟩ := copy_header (E := E) (f := f) hp long ram off n hn hoff
  obtain ⟨a1, a2, a3⟩ := h2 { d with cmdBuffer := cb, cmdBufferLength := l, expectedCmdLength := e,
                                     phase := .expectCommandParams } rfl
  rw [h1]
  unfold doCopy
  dsimp only
  rw [a1, a2, a3, if_neg (by omega)]
  cases ram with
  | true =>
    simp only [if_true] at hin ⊢
    rw [if_neg (by omega)]
    exact ⟨_, rfl, rfl, by simp, blit_done _ _ _ _ _, fun i hi => by
      dsimp only at hi ⊢; unfold blit; rw [if_neg (by omega)], rfl, rfl, rfl⟩
  | false =>
    simp only [Bool.false_eq_true, if_false] at hin ⊢
    rw [if_neg (by omega)]
    exact ⟨_, rfl, rfl, by simp, blit_done _ _ _ _ _, fun i hi => by
      dsimp only at hi ⊢; unfold blit; rw [if_neg (by omega)], rfl, rfl, rfl⟩

/-- State before the raw data of a raw command of length `n`. -/
theorem raw_header {E : Env} {f : Nat → Byte} {d : State} (hp : d.phase = .expectCommandByte)
    (long : Bool) (n : Nat) (hn : n < (if long then 16384 else 64)) :
    ∃ cb l e, putBytes E f d (lengthBytes false long n)
        = some { d with cmdBuffer := cb, cmdBufferLength := l, expectedCmdLength := e,
                        phase := .expectRawData, rawLength := 0 } ∧
      (∀ x : State, x.cmdBuffer = cb → getLength x = n) := by
  cases long with
  | true =>
    simp only [if_true] at hn
    obtain ⟨f1, f2, f3⟩ := header_facts false true (n / 256) (by omega)
    refine ⟨store (store d.cmdBuffer 0 (header false true (n / 256))) 1 (BitVec.ofNat 8 n), 2, 2, ?_, ?_⟩
    · have hcl : cmdLength (header false true (n / 256)) = 2 := by unfold cmdLength; rw [f1, f2]; rfl
      simp only [lengthBytes, if_true, putBytes]
      unfold putByte
      rw [hp]
      simp [hcl, store, f1]
    · intro x hx
      unfold getLength isLong
      rw [hx]
      simp only [store, reduceIte, Nat.zero_ne_one, f2, f3, BitVec.toNat_ofNat]
      omega
  | false =>
    simp only [Bool.false_eq_true, if_false] at hn
    obtain ⟨f1, f2, f3⟩ := header_facts false false n hn
    refine ⟨store d.cmdBuffer 0 (header false false n), 1, 1, ?_, ?_⟩
    · have hcl : cmdLength (header false false n) = 1 := by unfold cmdLength; rw [f1, f2]; rfl
      simp only [lengthBytes, Bool.false_eq_true, if_false, putBytes]
      unfold putByte
      rw [hp]
      simp [hcl]
    · intro x hx
      unfold getLength isLong
      rw [hx]
      simp only [store, reduceIte, f2, f3, Bool.false_eq_true]

theorem store_done (m : Nat → Byte) (pos : Nat) (b : Byte) :
    bytesAt (store m pos b) 0 (pos + 1) = bytesAt m 0 pos ++ [b] := by
  rw [bytesAt_append, Nat.zero_add]
  congr 1
  · apply bytesAt_congr
    intro i hi
    unfold store
    rw [if_neg (by omega)]
  · simp [bytesAt, store]

theorem raw_data {E : Env} {f : Nat → Byte} (n : Nat) (cb : Nat → Byte)
    (hcb : ∀ x : State, x.cmdBuffer = cb → getLength x = n) (bs : List Byte) :
    ∀ (d : State), d.phase = .expectRawData → d.cmdBuffer = cb → d.rawLength + bs.length = n →
      1 ≤ bs.length → d.bytesToFlash + bs.length ≤ 256 →
    ∃ d', putBytes E f d bs = some d' ∧ Done d d' bs := by
  induction bs with
  | nil => intro d _ _ _ h; exact absurd h (by decide)
  | cons b bs ih =>
    intro d hp hc hl _ hfit
    rw [List.length_cons] at hl hfit
    have hstep : putByte E f d b = some { d with
        scratchpad := store d.scratchpad d.bytesToFlash b
        bytesToFlash := d.bytesToFlash + 1, rawLength := d.rawLength + 1
        phase := if d.rawLength + 1 ≥ n then .expectCommandByte else .expectRawData } := by
      unfold putByte
      rw [hp]
      dsimp only
      have hg : getLength { d with
          scratchpad := store d.scratchpad d.bytesToFlash b
          bytesToFlash := d.bytesToFlash + 1, rawLength := d.rawLength + 1
          phase := .expectRawData } = n := hcb _ hc
      rw [if_neg (by omega), hg]
      split <;> rfl
    have hone : ∀ ph, Done d { d with
        scratchpad := store d.scratchpad d.bytesToFlash b
        bytesToFlash := d.bytesToFlash + 1, rawLength := d.rawLength + 1
        phase := ph } [b] ∨ ph ≠ .expectCommandByte := by
      intro ph
      by_cases h : ph = .expectCommandByte
      · left
        exact ⟨h, rfl, store_done _ _ _, fun i hi => by
          dsimp only at hi ⊢; unfold store; rw [if_neg (by omega)], rfl, rfl, rfl⟩
      · exact .inr h
    unfold putBytes
    rw [hstep]
    dsimp only [Option.bind]
    cases bs with
    | nil =>
      rw [if_pos (by rw [List.length_nil] at hl; omega)]
      refine ⟨_, rfl, ?_⟩
      rcases hone .expectCommandByte with h | h
      · exact h
      · exact absurd rfl h
    | cons b2 bs =>
      rw [List.length_cons] at hl hfit
      rw [if_neg (by omega)]
      obtain ⟨d', e1, e2⟩ := ih { d with
        scratchpad := store d.scratchpad d.bytesToFlash b
        bytesToFlash := d.bytesToFlash + 1, rawLength := d.rawLength + 1
        phase := .expectRawData } rfl hc (by rw [List.length_cons]; dsimp only; omega)
        (by rw [List.length_cons]; omega) (by rw [List.length_cons]; dsimp only; omega)
      refine ⟨d', e1, e2.phase, by rw [e2.count]; simp only [List.length_cons]; omega, ?_, ?_,
        e2.old, e2.base, e2.page⟩
      · rw [e2.data]
        dsimp only
        rw [store_done, List.append_assoc]
        rfl
      · intro i hi
        rw [e2.rest i hi]
        have := e2.count
        dsimp only at this ⊢
        unfold store
        rw [if_neg (by omega)]

/-- One well-formed command. -/
theorem cmd_done {E : Env} {f : Nat → Byte} (c : Cmd) (d : State) (hp : d.phase = .expectCommandByte)
    (hwf : WF (E.top - d.startAddrOfFlash.toNat) c) (hb : d.startAddrOfFlash.toNat ≤ E.top)
    (hfit : d.bytesToFlash + (output (fun i => f (d.startAddrOfFlash.toNat + i)) d.oldPages c).length ≤ 256) :
    ∃ d', putBytes E f d (encode c) = some d' ∧
      Done d d' (output (fun i => f (d.startAddrOfFlash.toNat + i)) d.oldPages c) := by
  cases c with
  | raw long bytes =>
    obtain ⟨h1, h2⟩ := hwf
    have hfit : d.bytesToFlash + bytes.length ≤ 256 := hfit
    obtain ⟨cb, l, e, e1, e2⟩ := raw_header (E := E) (f := f) hp long bytes.length h2
    obtain ⟨d', e3, e4⟩ := raw_data (E := E) (f := f) bytes.length cb e2 bytes
      { d with cmdBuffer := cb, cmdBufferLength := l, expectedCmdLength := e,
               phase := .expectRawData, rawLength := 0 } rfl rfl (Nat.zero_add _) h1 hfit
    refine ⟨d', ?_, e4.phase, e4.count, e4.data, e4.rest, e4.old, e4.base, e4.page⟩
    show putBytes E f d (lengthBytes false long bytes.length ++ bytes) = some d'
    rw [putBytes_append, e1]
    exact e3
  | copyFlash long off n =>
    obtain ⟨h1, h2, h3⟩ := hwf
    have hfit : d.bytesToFlash + n ≤ 256 := by simpa [output] using hfit
    obtain ⟨d', e1, e2⟩ := copy_done (E := E) (f := f) hp long false off n h1 h2 hfit (by
      simp only [Bool.false_eq_true, if_false]; omega)
    refine ⟨d', e1, ?_⟩
    simp only [Bool.false_eq_true, if_false] at e2
    have : (fun i => f (d.startAddrOfFlash.toNat + off + i))
        = (fun i => f (d.startAddrOfFlash.toNat + (off + i))) := by funext i; rw [Nat.add_assoc]
    rw [this] at e2
    exact e2
  | copyOldPages long off n =>
    obtain ⟨h1, h3⟩ := hwf
    have hfit : d.bytesToFlash + n ≤ 256 := by simpa [output] using hfit
    obtain ⟨d', e1, e2⟩ := copy_done (E := E) (f := f) hp long true off n h1 (by omega) hfit (by
      simp only [if_true]; omega)
    refine ⟨d', e1, ?_⟩
    simp only [if_true] at e2
    exact e2

theorem stream_done {E : Env} {f : Nat → Byte} (cs : List Cmd) : ∀ (d : State),
    d.phase = .expectCommandByte → (∀ c ∈ cs, WF (E.top - d.startAddrOfFlash.toNat) c) →
    d.startAddrOfFlash.toNat ≤ E.top →
    d.bytesToFlash + (outputAll (fun i => f (d.startAddrOfFlash.toNat + i)) d.oldPages cs).length ≤ 256 →
    ∃ d', putBytes E f d (encodeAll cs) = some d' ∧
      Done d d' (outputAll (fun i => f (d.startAddrOfFlash.toNat + i)) d.oldPages cs) := by
  induction cs with
  | nil => intro d hp _ _ _; exact ⟨d, rfl, hp, rfl, by simp [outputAll], fun _ _ => rfl, rfl, rfl, rfl⟩
  | cons c cs ih =>
    intro d hp hwf hb hfit
    unfold outputAll at hfit ⊢
    rw [List.flatMap_cons, List.length_append] at hfit
    obtain ⟨d1, e1, e2⟩ := cmd_done (E := E) (f := f) c d hp (hwf c List.mem_cons_self) hb (by omega)
    have ih1 := ih d1 e2.phase
    rw [e2.base, e2.old, e2.count] at ih1
    obtain ⟨d2, e3, e4⟩ := ih1 (fun x hx => hwf x (List.mem_cons_of_mem _ hx)) hb
      (by unfold outputAll; omega)
    refine ⟨d2, ?_, ?_⟩
    · unfold encodeAll
      rw [List.flatMap_cons, putBytes_append, e1]
      exact e3
    · rw [List.flatMap_cons]
      exact e2.trans e4

end Verif.Boot.Decomp
