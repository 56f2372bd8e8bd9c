import Verif.Boot.TelegramLemmas
import Verif.Boot.Props

/-!
# C107: the bootloader as a device on the bus

What a telegram on the bus does to the bootloader and what it answers, for every telegram and every
history of the transport layer.
-/

namespace Verif.Boot
open Verif.Boot.Spec Knx Verif.Iap TL4

/-! ## Services -/

theorem service_update {t : Buf} : apciCommand t = 0x2F8#16 ↔ IsUpdateMessage t := by
  have k : ∀ a b : Byte, ((let apci : Word := (((a &&& 0x03#8).setWidth 16 : Word) <<< (8 : Nat)) ||| b.setWidth 16
      let short := apci &&& 0x3c0#16
      if short = 0x180#16 ∨ short = 0x200#16 ∨ short = 0x280#16 ∨ short = 0x300#16 then short else apci)
        = 0x2F8#16) ↔ a.extractLsb' 0 2 ++ b = 0x2F8#10 := by
    intro a b
    have ha : a &&& 0x03#8 = (a.extractLsb' 0 2).setWidth 8 := by
      revert a; decide +kernel
    rw [ha]
    generalize a.extractLsb' 0 2 = a
    revert a b; decide +kernel
  exact k (t 6) (t 7)

theorem service_memory {t : Buf} : apciCommand t = 0x280#16 ↔ IsMemoryWrite t := by
  have k : ∀ a b : Byte, ((let apci : Word := (((a &&& 0x03#8).setWidth 16 : Word) <<< (8 : Nat)) ||| b.setWidth 16
      let short := apci &&& 0x3c0#16
      if short = 0x180#16 ∨ short = 0x200#16 ∨ short = 0x280#16 ∨ short = 0x300#16 then short else apci)
        = 0x280#16) ↔ (a.extractLsb' 0 2 = 0b10#2 ∧ b.extractLsb' 6 2 = 0b10#2) := by
    intro a b
    have ha : a &&& 0x03#8 = (a.extractLsb' 0 2).setWidth 8 := by
      revert a; decide +kernel
    rw [ha]
    generalize a.extractLsb' 0 2 = a
    revert a b; decide +kernel
  exact k (t 6) (t 7)

theorem service_restart {t : Buf} : apciCommand t = 0x380#16 ↔ Service 0x380#10 t := by
  have k : ∀ a b : Byte, ((let apci : Word := (((a &&& 0x03#8).setWidth 16 : Word) <<< (8 : Nat)) ||| b.setWidth 16
      let short := apci &&& 0x3c0#16
      if short = 0x180#16 ∨ short = 0x200#16 ∨ short = 0x280#16 ∨ short = 0x300#16 then short else apci)
        = 0x380#16) ↔ a.extractLsb' 0 2 ++ b = 0x380#10 := by
    intro a b
    have ha : a &&& 0x03#8 = (a.extractLsb' 0 2).setWidth 8 := by
      revert a; decide +kernel
    rw [ha]
    generalize a.extractLsb' 0 2 = a
    revert a b; decide +kernel
  exact k (t 6) (t 7)

theorem service_address {t : Buf} : apciCommand t = 0x100#16 ↔ Service 0x100#10 t := by
  have k : ∀ a b : Byte, ((let apci : Word := (((a &&& 0x03#8).setWidth 16 : Word) <<< (8 : Nat)) ||| b.setWidth 16
      let short := apci &&& 0x3c0#16
      if short = 0x180#16 ∨ short = 0x200#16 ∨ short = 0x280#16 ∨ short = 0x300#16 then short else apci)
        = 0x100#16) ↔ a.extractLsb' 0 2 ++ b = 0x100#10 := by
    intro a b
    have ha : a &&& 0x03#8 = (a.extractLsb' 0 2).setWidth 8 := by
      revert a; decide +kernel
    rw [ha]
    generalize a.extractLsb' 0 2 = a
    revert a b; decide +kernel
  exact k (t 6) (t 7)

theorem update_not_memory {t : Buf} (h : IsUpdateMessage t) : apciCommand t ≠ 0x280#16 := by
  rw [service_update.mpr h]; decide

/-- An update message of a complete telegram. -/
theorem updateApci_message (E : Env) (I : Info) (d : BootDev) (s : State) (t : Buf) (len : Nat) (sb : Buf)
    (ht : IsUpdateMessage t) (h9 : 9 ≤ len) (h255 : len ≤ 255) (hd : d.st = some s) :
    updateApci E I d t len sb =
      match receive E I s (message t len) with
      | none => ({ d with st := none }, sb, false)
      | some (s', r) => ({ d with st := some s' }, writeResponse sb r, true) := by
  unfold updateApci
  rw [hd]
  dsimp only
  rw [if_neg (update_not_memory ht), if_pos (service_update.mpr ht), usermsg_eq E I s t len h9 h255]
  cases receive E I s (message t len) <;> rfl

/-- **C107.** A message to the bootloader is executed from the data bytes of its own telegram, and the
telegram written to the send buffer is the answer: complete, and with the right length. -/
theorem C107_message (E : Env) (I : Info) (d : BootDev) (s s' : State) (r : Resp) (t : Buf) (len : Nat)
    (sb : Buf) (ht : IsUpdateMessage t) (h9 : 9 ≤ len) (h255 : len ≤ 255) (hd : d.st = some s)
    (h : receive E I s (message t len) = some (s', r)) :
    ∃ b, updateApci E I d t len sb = ({ d with st := some s' }, b, true) ∧ IsAnswer sb b r ∧
      (r.cmd, r.payload.length) ∈ answerBytes ∧ telegramSize b = 9 + r.payload.length ∧ telegramSize b ≤ 22 := by
  have hans := handle_answers E I s s' _ _ r h
  have hl := answer_len hans
  have ha := response_isAnswer sb r (by omega)
  refine ⟨writeResponse sb r, ?_, ha, hans, ?_⟩
  · rw [updateApci_message E I d s t len sb ht h9 h255 hd, h]
  · have hlen : telegramSize (writeResponse sb r) = 9 + r.payload.length := by
      have := congrArg List.length ha
      simp [bytes] at this
      omega
    omega

/-- A telegram built from its header and its data. -/
def demoTel (src own : Word) (tpci : Byte) (m : List Byte) : Buf := fun i =>
  ([0xB0#8, src.extractLsb' 8 8, src.extractLsb' 0 8, own.extractLsb' 8 8, own.extractLsb' 0 8,
    0x60#8 + BitVec.ofNat 8 (m.length + 1), tpci, 0xF8#8] ++ m).getD i 0#8

/-- Non-vacuity: the request for the unique id, as a connectionless and as a numbered telegram. -/
example : IsUpdateMessage (demoTel 0x1101#16 0x1105#16 0x02#8 [0xbe#8]) ∧
    IsUpdateMessage (demoTel 0x1101#16 0x1105#16 0x46#8 [0xbe#8]) ∧
    message (demoTel 0x1101#16 0x1105#16 0x02#8 [0xbe#8]) 10 = [0xbe#8] ∧
    (receive demoEnv demoInfo demoStart [0xbe#8]).map (·.2) = some ⟨0xbd#8, demoUid⟩ := by decide +kernel

/-- **C107.** Bytes behind the data (the checksum, remains of earlier telegrams), the addresses and the
transport layer's byte have no influence. -/
theorem C107_own_bytes (E : Env) (I : Info) (d : BootDev) (t t' : Buf) (len : Nat) (sb : Buf)
    (ht : IsUpdateMessage t) (ht' : IsUpdateMessage t') (h9 : 9 ≤ len) (h255 : len ≤ 255)
    (h : ∀ i, 8 ≤ i → i + 1 < len → t i = t' i) : updateApci E I d t len sb = updateApci E I d t' len sb := by
  cases hd : d.st with
  | none => unfold updateApci; rw [hd]
  | some s =>
    have hm : message t len = message t' len := by
      unfold message
      apply List.map_congr_left
      intro i hi
      have := List.mem_range.mp hi
      exact h _ (by omega) (by omega)
    rw [updateApci_message E I d s t len sb ht h9 h255 hd, updateApci_message E I d s t' len sb ht' h9 h255 hd, hm]

example : ∀ i, 8 ≤ i → i + 1 < 10 → demoTel 0x1101#16 0x1105#16 0x02#8 [0xbe#8] i =
    demoTel 0x2202#16 0x1105#16 0x46#8 [0xbe#8, 0x77#8] i := by
  intro i h1 h2
  have : i = 8 := by omega
  subst this; rfl

/-- **C107.** A telegram too short to contain a service does nothing; the answer is an error status. -/
theorem C107_too_short (E : Env) (I : Info) (d : BootDev) (s : State) (t : Buf) (len : Nat) (sb : Buf)
    (ht : IsUpdateMessage t) (h9 : len < 9) (hd : d.st = some s) :
    ∃ b e, updateApci E I d t len sb = (d, b, true) ∧ IsAnswer sb b (status e) ∧ (e = 0x01#8 ∨ e = 0x55#8) := by
  refine ⟨_, if (code2UPDCommand (t 8)).1 = 0#8 then UDP_INVALID else UDP_INVALID_DATA, ?_,
    response_isAnswer sb (status _) (by show 1 ≤ 13; decide), ?_⟩
  · unfold updateApci
    rw [hd]
    dsimp only
    rw [if_neg (update_not_memory ht), if_pos (service_update.mpr ht), usermsg_short E I s t len h9]
    have : ({ d with st := some s } : BootDev) = d := by rw [← hd]
    dsimp only
    rw [this]
    rfl
  · split
    · exact .inl rfl
    · exact .inr rfl

/-- Finding: which of the two errors it is depends on a byte behind the telegram. -/
theorem C107_short_reads_beyond (E : Env) (I : Info) (s : State) (sb : Buf) :
    ∃ t t' : Buf, (∀ i, i < 8 → t i = t' i) ∧ IsUpdateMessage t ∧
      (updateApci E I ⟨some s, false⟩ t 8 sb).2.1 9 ≠ (updateApci E I ⟨some s, false⟩ t' 8 sb).2.1 9 := by
  refine ⟨demoTel 0 0 0x02#8 [0xbe#8], demoTel 0 0 0x02#8 [0x02#8], ?_, by decide, ?_⟩
  · intro i hi
    have : i = 0 ∨ i = 1 ∨ i = 2 ∨ i = 3 ∨ i = 4 ∨ i = 5 ∨ i = 6 ∨ i = 7 := by omega
    rcases this with rfl | rfl | rfl | rfl | rfl | rfl | rfl | rfl <;> rfl
  · have e : ∀ t : Buf, IsUpdateMessage t → (updateApci E I ⟨some s, false⟩ t 8 sb).2.1 9 =
        (if (code2UPDCommand (t 8)).1 = 0#8 then UDP_INVALID else UDP_INVALID_DATA) := by
      intro t ht
      unfold updateApci
      dsimp only
      rw [if_neg (update_not_memory ht), if_pos (service_update.mpr ht), usermsg_short E I s t 8 (by decide)]
      rfl
    rw [e _ (by decide), e _ (by decide)]
    decide +kernel

/-- **C107.** The other services: a memory write is refused with the fixed answer "not implemented" of
the old protocol, a restart request is taken note of, everything else is not answered. The updater
(flash, buffer, lock) does not change. -/
theorem C107_other_services (E : Env) (I : Info) (d : BootDev) (s : State) (t : Buf) (len : Nat) (sb : Buf)
    (hd : d.st = some s) (ht : ¬ IsUpdateMessage t) :
    (updateApci E I d t len sb).1.st = some s ∧
    (IsMemoryWrite t → ∃ b, updateApci E I d t len sb = (d, b, true) ∧ bytes b (telegramSize b) =
      bytes sb 5 ++ [0x67#8, 0x42#8, 0x44#8, 0x00#8, 0x15#8, 0xFF#8, 0xFF#8, 0x00#8, 0x00#8]) ∧
    (Service 0x380#10 t → updateApci E I d t len sb = ({ d with restart := true }, sb, false)) ∧
    (¬ IsMemoryWrite t → ¬ Service 0x380#10 t → updateApci E I d t len sb = (d, sb, false)) := by
  have hu : apciCommand t ≠ 0x2F8#16 := fun h => ht (service_update.mp h)
  have base : updateApci E I d t len sb =
      if apciCommand t = 0x280#16 then (d, deprecatedMemoryWrite sb, true)
      else if apciCommand t = 0x380#16 then ({ d with restart := true }, sb, false) else (d, sb, false) := by
    unfold updateApci
    rw [hd]
    dsimp only
    rw [if_neg hu]
  refine ⟨?_, ?_, ?_, ?_⟩
  · rw [base]
    by_cases h1 : apciCommand t = 0x280#16
    · rw [if_pos h1]; exact hd
    · rw [if_neg h1]
      by_cases h2 : apciCommand t = 0x380#16
      · rw [if_pos h2]; exact hd
      · rw [if_neg h2]; exact hd
  · intro h
    rw [base, if_pos (service_memory.mpr h)]
    refine ⟨_, rfl, ?_⟩
    have hs : telegramSize (deprecatedMemoryWrite sb) = 14 := by
      unfold telegramSize
      have : deprecatedMemoryWrite sb 5 = 0x67#8 := rfl
      rw [this]; rfl
    rw [hs]
    rfl
  · intro h
    rw [base, if_neg (by rw [service_restart.mpr h]; decide), if_pos (service_restart.mpr h)]
  · intro h1 h2
    rw [base, if_neg (fun h => h1 (service_memory.mp h)), if_neg (fun h => h2 (service_restart.mp h))]

/-- Non-vacuity: a memory write of 4 bytes, a restart and a memory read. -/
example : IsMemoryWrite (fun i => [0xB0#8, 0x11#8, 1#8, 0x11#8, 5#8, 0x67#8, 0x42#8, 0x84#8].getD i 0#8) ∧
    Service 0x380#10 (fun i => [0xB0#8, 0x11#8, 1#8, 0x11#8, 5#8, 0x61#8, 0x43#8, 0x80#8].getD i 0#8) ∧
    ¬ IsMemoryWrite (fun i => [0xB0#8, 0x11#8, 1#8, 0x11#8, 5#8, 0x63#8, 0x42#8, 0x01#8].getD i 0#8) := by
  decide

/-! ## On the bus -/

theorem fold_none (E : Env) (I : Info) (ms : List (Buf × Nat)) : ms.foldl (execute E I) none = none := by
  induction ms with
  | nil => rfl
  | cons m ms ih =>
    rw [List.foldl_cons]
    have : execute E I none m = none := by unfold execute; split <;> rfl
    rw [this]; exact ih

/-- One call of `processApci` is one execution, whatever the send buffer contains. -/
theorem updateApci_state (E : Env) (I : Info) (d : BootDev) (t : Buf) (len : Nat) (sb : Buf) (h255 : len ≤ 255) :
    (updateApci E I d t len sb).1.st = execute E I d.st (t, len) := by
  cases hd : d.st with
  | none =>
    have e : updateApci E I d t len sb = (d, sb, false) := by unfold updateApci; rw [hd]
    rw [e]
    show d.st = _
    rw [hd]
    exact (fold_none E I [(t, len)]).symm
  | some s =>
    by_cases ht : IsUpdateMessage t
    · by_cases h9 : 9 ≤ len
      · rw [updateApci_message E I d s t len sb ht h9 h255 hd]
        unfold execute
        rw [if_pos ⟨ht, h9⟩]
        show _ = (receive E I s (message t len)).map (·.1)
        cases receive E I s (message t len) with
        | none => rfl
        | some r => rfl
      · obtain ⟨b, e, h, -⟩ := C107_too_short E I d s t len sb ht (by omega) hd
        rw [h]
        unfold execute
        rw [if_neg (fun k => h9 k.2)]
        exact hd
    · rw [(C107_other_services E I d s t len sb hd ht).1]
      unfold execute
      rw [if_neg (fun k => ht k.1)]

theorem handed_append (a b : List Out) : handed (a ++ b) = handed a ++ handed b := by
  induction a with
  | nil => rfl
  | cons x a ih => cases x <;> simp [handed, ih]

theorem broadcast_st (d : BootDev) (t : Buf) (l : Nat) : (updateBroadcast d t l).1 = d := by
  unfold updateBroadcast; split <;> rfl

theorem a02_app {σ : Type} (A : App σ) (s : TL4.State σ) (t : Buf) (len : Nat) :
    ∃ b, (a02Process A s t len).app = (A.processApci s.app t len b).1 := by
  unfold a02Process
  dsimp only
  by_cases h : s.con1 = .free
  · rw [if_pos h]
    refine ⟨s.conBuf1, ?_⟩
    split <;> rfl
  · rw [if_neg h]
    refine ⟨s.conBuf2, ?_⟩
    split <;> rfl

/-- One operation of the transport layer. -/
theorem step_state (E : Env) (I : Info) (s : TL4.State BootDev) (op : Op)
    (hl : ∀ t l, op = .rx t l → l ≤ 255) :
    (TL4.step (updateApp E I) s op).1.app.st =
      (handed (TL4.step (updateApp E I) s op).2).foldl (execute E I) s.app.st := by
  rcases step_trans (updateApp E I) s op with ⟨h, -⟩ | h
  · rw [h]; rfl
  · generalize (TL4.step (updateApp E I) s op).1 = s' at h ⊢
    generalize (TL4.step (updateApp E I) s op).2 = o at h ⊢
    cases h with
    | rxBroadcast tel len h => exact congrArg BootDev.st (broadcast_st _ _ _)
    | rxBroadcastSend tel len f h hf htx => exact congrArg BootDev.st (broadcast_st _ _ _)
    | individual tel len hu hc htx hr => exact updateApci_state E I _ _ _ _ (hl _ _ rfl)
    | individualSend tel len r hu hc htx hr hs =>
      subst hr; exact updateApci_state E I _ _ _ _ (hl _ _ rfl)
    | dataAccepted tel len hu hc hn ha hp hs htx =>
      obtain ⟨b, hb⟩ := a02_app (updateApp E I)
        (ctrlState s T_ACK s.connectedAddr (sequenceNumber tel).toNat) tel len
      rw [hb]
      exact updateApci_state E I _ _ _ b (hl _ _ rfl)
    | ackOk tel len hu hc h1 h2 hk hp ha hs =>
      show (a08 s).app.st = _
      unfold a08
      dsimp only
      split <;> rfl
    | _ => rfl

/-- **C107.** After every history of the bootloader on the bus (any telegrams from anybody, any timing,
any losses) its updater is in exactly the state that results from executing, one after the other and once
each, the messages handed over by the transport layer. -/
theorem C107_history (E : Env) (I : Info) (s : TL4.State BootDev) (ops : List Op) (hl : LengthsOk ops) :
    (TL4.run (updateApp E I) s ops).1.app.st =
      (handed (TL4.run (updateApp E I) s ops).2).foldl (execute E I) s.app.st := by
  induction ops generalizing s with
  | nil => rfl
  | cons op ops ih =>
    show (TL4.run (updateApp E I) (TL4.step (updateApp E I) s op).1 ops).1.app.st =
      (handed ((TL4.step (updateApp E I) s op).2 ++
        (TL4.run (updateApp E I) (TL4.step (updateApp E I) s op).1 ops).2)).foldl _ _
    rw [handed_append, List.foldl_append, ← step_state E I s op (fun t l h => hl t l (by rw [← h]; exact List.mem_cons_self)),
      ih _ (fun t l h => hl t l (List.mem_cons_of_mem _ h))]

/-- The executions are those of the protocol. -/
theorem fold_run (E : Env) (I : Info) (ms : List (Buf × Nat)) (s : State) :
    ms.foldl (execute E I) (some s) = (Boot.run E I s (messagesOf ms)).map (·.1) := by
  induction ms generalizing s with
  | nil => rfl
  | cons m ms ih =>
    rw [List.foldl_cons]
    unfold messagesOf execute
    rw [List.filterMap_cons]
    by_cases h : IsUpdateMessage m.1 ∧ 9 ≤ m.2
    · rw [if_pos h, if_pos h]
      show List.foldl (execute E I) ((receive E I s (message m.1 m.2)).map (·.1)) ms = _
      unfold Boot.run
      show _ = Option.map _ ((receive E I s (message m.1 m.2)).bind _)
      cases hr : receive E I s (message m.1 m.2) with
      | none => exact fold_none E I ms
      | some r =>
        show List.foldl (execute E I) (some r.1) ms = _
        rw [ih]
        show _ = Option.map _ (Option.map _ (Boot.run E I r.1 (messagesOf ms)))
        cases Boot.run E I r.1 (messagesOf ms) <;> rfl
    · rw [if_neg h, if_neg h]
      exact ih s

theorem handed_mem {E : Env} {I : Info} {s : TL4.State BootDev} {op : Op} {m : Buf × Nat}
    (h : m ∈ handed (TL4.step (updateApp E I) s op).2) : op = .rx m.1 m.2 := by
  rcases step_trans (updateApp E I) s op with ⟨k, -⟩ | k
  · rw [k] at h; exact absurd h (by simp [handed])
  · generalize (TL4.step (updateApp E I) s op).1 = s' at k h
    generalize (TL4.step (updateApp E I) s op).2 = o at k h
    cases k <;> simp [handed, ctrlOut, dataOut] at h <;> subst h <;> rfl

theorem handed_run {E : Env} {I : Info} {ops : List Op} {s : TL4.State BootDev} {m : Buf × Nat}
    (h : m ∈ handed (TL4.run (updateApp E I) s ops).2) : Op.rx m.1 m.2 ∈ ops := by
  induction ops generalizing s with
  | nil => exact absurd h (by simp [TL4.run, handed])
  | cons op ops ih =>
    have h : m ∈ handed ((TL4.step (updateApp E I) s op).2 ++
        (TL4.run (updateApp E I) (TL4.step (updateApp E I) s op).1 ops).2) := h
    rw [handed_append] at h
    rcases List.mem_append.mp h with h | h
    · rw [handed_mem h]; exact List.mem_cons_self
    · exact List.mem_cons_of_mem _ (ih h)

theorem mem_messagesOf {ms : List (Buf × Nat)} {x : List Byte} (h : x ∈ messagesOf ms) :
    ∃ m ∈ ms, IsUpdateMessage m.1 ∧ 9 ≤ m.2 ∧ x = message m.1 m.2 := by
  unfold messagesOf at h
  obtain ⟨m, hm, he⟩ := List.mem_filterMap.mp h
  by_cases k : IsUpdateMessage m.1 ∧ 9 ≤ m.2
  · rw [if_pos k] at he
    exact ⟨m, hm, k.1, k.2, (Option.some.inj he).symm⟩
  · rw [if_neg k] at he; exact absurd he (by simp)

/-- **C107.** From power-up on, whatever happens on the bus: as long as no telegram contained the unlock
command with the id of this device, flash, download buffer and decompressor are as at power-up. -/
theorem C107_locked_history (E : Env) (I : Info) (s : TL4.State BootDev) (hw : Hw) (ram : Nat → Byte)
    (ops : List Op) (hs : s.app.st = some (Boot.init E hw ram)) (hl : LengthsOk ops)
    (hm : ∀ t l, Op.rx t l ∈ ops → IsUpdateMessage t → ¬ UnlocksWith (bytesAt E.uid 0 12) (message t l)) :
    ∃ s', (TL4.run (updateApp E I) s ops).1.app.st = some s' ∧ s'.hw.flash = hw.flash ∧ s'.ram = ram ∧
      s'.ramBufferPosition = 0#16 ∧ s'.decomp = (Boot.init E hw ram).decomp := by
  rw [C107_history E I s ops hl, hs, fold_run]
  obtain ⟨s', rs, e1, e2, e3, e4, e5, -⟩ := C38_locked_device_is_inert E I hw ram
    (messagesOf (handed (TL4.run (updateApp E I) s ops).2)) (by
      intro x hx
      obtain ⟨m, hm', h1, h2, rfl⟩ := mem_messagesOf hx
      have := handed_run hm'
      refine ⟨?_, hm _ _ this h1⟩
      show (message m.1 m.2).length ≤ 255
      rw [message_length]
      have := hl _ _ this
      omega)
  exact ⟨s', by rw [e1]; rfl, e2, e3, e4, e5⟩

/-- **C107.** Whatever happens on the bus, in whatever state the bootloader is: its own flash contents never
change. -/
theorem C107_bootloader_survives (E : Env) (L : Layout E) (I : Info) (s : TL4.State BootDev) (u u' : State)
    (ops : List Op) (hs : s.app.st = some u) (hl : LengthsOk ops)
    (h : (TL4.run (updateApp E I) s ops).1.app.st = some u') :
    ∀ a, a < E.imageEnd → u'.hw.flash a = u.hw.flash a := by
  rw [C107_history E I s ops hl, hs, fold_run] at h
  obtain ⟨⟨u1, rs⟩, h1, h2⟩ := Option.map_eq_some_iff.mp h
  have h2 : u1 = u' := h2
  subst h2
  exact C39_bootloader_never_overwritten E L I _ u u1 rs h1

/-- A device with the address 1.1.5. -/
def demoDev : TL4.State BootDev := TL4.init 0x1105#16 0 ⟨some demoStart, false⟩

/-- Non-vacuity: a wrong unlock attempt and an erase request, and another device's telegram. -/
def demoOps : List Op :=
  [.rx (demoTel 0x1101#16 0x1105#16 0x02#8 (0xbf#8 :: List.replicate 12 0#8)) 22, .txDone true,
   .rx (demoTel 0x1101#16 0x1105#16 0x02#8 [0xea#8]) 10, .rx (demoTel 0x1101#16 0x1106#16 0x02#8 [0xea#8]) 10]

example : demoDev.app.st = some (Boot.init demoEnv demoHw (fun _ => 0#8)) ∧ LengthsOk demoOps ∧
    ∀ t l, Op.rx t l ∈ demoOps → IsUpdateMessage t → ¬ UnlocksWith (bytesAt demoEnv.uid 0 12) (message t l) := by
  refine ⟨rfl, ?_, ?_⟩
  · intro t l h
    simp [demoOps] at h
    omega
  · intro t l h _
    simp [demoOps] at h
    rcases h with ⟨rfl, rfl⟩ | ⟨rfl, rfl⟩ | ⟨rfl, rfl⟩ <;> decide +kernel

/-- **C107.** Broadcast and group telegrams do not touch the bootloader; the only one it answers is the
request for individual addresses. (Unlike a device running its application it answers without the
programming mode: C107_always_answers.) -/
theorem C107_not_addressed (E : Env) (I : Info) (s : TL4.State BootDev) (t : Buf) (len : Nat)
    (h : TL4.Spec.dst t = 0#16 ∨ TL4.Spec.isGroup t = true) :
    (TL4.step (updateApp E I) s (.rx t len)).1.app = s.app ∧
    (¬ (TL4.Spec.dst t = 0#16 ∧ Service 0x100#10 t) →
      (TL4.step (updateApp E I) s (.rx t len)).1 = s ∧
      ((TL4.step (updateApp E I) s (.rx t len)).2.filterMap frameOf) = []) := by
  have hdst : destinationAddress t = TL4.Spec.dst t := dest_eq t
  have hg : (t 5 &&& 0x80#8 ≠ 0#8) ↔ TL4.Spec.isGroup t = true := by
    have : ∀ b : Byte, (b &&& 0x80#8 ≠ 0#8) ↔ b.getLsbD 7 = true := by decide +kernel
    exact this _
  unfold TL4.step TL4.exec TL4.processTelegram
  dsimp only
  rw [hdst]
  by_cases hd : TL4.Spec.dst t = 0#16
  · rw [if_pos hd]
    show ((callback s (updateBroadcast s.app t len) (.broadcastCall t len)).getD (s, [])).1.app = s.app ∧
      (_ → ((callback s (updateBroadcast s.app t len) (.broadcastCall t len)).getD (s, [])).1 = s ∧
        List.filterMap frameOf ((callback s (updateBroadcast s.app t len) (.broadcastCall t len)).getD (s, [])).2 = [])
    by_cases hs : Service 0x100#10 t
    · refine ⟨?_, fun k => absurd ⟨hd, hs⟩ k⟩
      unfold updateBroadcast
      rw [if_pos (service_address.mpr hs)]
      unfold callback userSend acquire sendPrepared
      dsimp only
      split <;> rfl
    · unfold updateBroadcast
      rw [if_neg (fun k => hs (service_address.mp k))]
      exact ⟨rfl, fun _ => ⟨rfl, rfl⟩⟩
  · rw [if_neg hd, if_pos (hg.mpr (h.resolve_left hd))]
    exact ⟨rfl, fun _ => ⟨rfl, rfl⟩⟩

/-- Finding: the bootloader answers the request for individual addresses whether or not its programming
button was pressed (every device that is in its bootloader answers). -/
theorem C107_always_answers (E : Env) (I : Info) (s : TL4.State BootDev) (t : Buf) (len : Nat)
    (hd : TL4.Spec.dst t = 0#16) (hs : Service 0x100#10 t) (hfree : s.tx = .free) :
    ∃ s1 s2, (TL4.step (updateApp E I) s (.rx t len)).2.filterMap frameOf =
      [[0xB0#8, s1, s2, 0x00#8, 0x00#8, 0xE1#8, 0x01#8, 0x40#8]] := by
  refine ⟨s.txBuf 1, s.txBuf 2, ?_⟩
  have hdst : destinationAddress t = 0#16 := by rw [dest_eq t]; exact hd
  unfold TL4.step TL4.exec TL4.processTelegram
  dsimp only
  rw [if_pos hdst]
  show List.filterMap frameOf ((callback s (updateBroadcast s.app t len) (.broadcastCall t len)).getD (s, [])).2 = _
  unfold updateBroadcast
  rw [if_pos (service_address.mpr hs)]
  unfold callback userSend acquire sendPrepared
  dsimp only
  rw [if_pos hfree]
  show [bytes (iaResponse s.txBuf) (telegramSize (iaResponse s.txBuf))] = _
  have h5 : iaResponse s.txBuf 5 = 0xE1#8 := rfl
  have : telegramSize (iaResponse s.txBuf) = 8 := by unfold telegramSize; rw [h5]; rfl
  rw [this]
  have h0 : iaResponse s.txBuf 0 = 0xB0#8 := by
    show ((0#8 <<< 2) ||| ((0xB0#8 ||| 0x20#8) &&& 0xF3#8)) ||| 0x80#8 = 0xB0#8
    decide
  show [[iaResponse s.txBuf 0, s.txBuf 1, s.txBuf 2, highByte 0#16, lowByte 0#16, 0xE1#8, highByte 0x140#16,
    lowByte 0x140#16 ||| 0#8]] = _
  rw [h0]
  rfl

example : TL4.Spec.dst (fun i => [0xB0#8, 0x11#8, 1#8, 0#8, 0#8, 0xE1#8, 0x01#8, 0x00#8].getD i 0#8) = 0#16 ∧
    Service 0x100#10 (fun i => [0xB0#8, 0x11#8, 1#8, 0#8, 0#8, 0xE1#8, 0x01#8, 0x00#8].getD i 0#8) := by decide

/-- Finding: a message needs no connection. A connectionless telegram from any sender is executed, also while
the bootloader is connected to somebody else, and also after it was unlocked by somebody else. -/
theorem C107_without_connection (E : Env) (I : Info) (s : TL4.State BootDev) (t : Buf) (len : Nat)
    (hu : TL4.Spec.UnicastTo s.ownAddr t) (hc : TL4.Spec.isConnectionless t = true) (hfree : s.tx = .free)
    (h255 : len ≤ 255) :
    (TL4.step (updateApp E I) s (.rx t len)).1.app.st = execute E I s.app.st (t, len) := by
  rw [step_state E I s _ (by rintro t' l' ⟨⟩; exact h255)]
  have hf := (forUs_iff s t).mpr hu
  have h6 : t 6 &&& 0xfc#8 = 0#8 := by
    have : ∀ b : Byte, (b.extractLsb' 2 6 == 0#6) = true → b &&& 0xfc#8 = 0#8 := by decide +kernel
    exact this _ hc
  have h7 : ¬ ((t 6 &&& 0xc3#8) &&& 0x80#8 ≠ 0#8) := by
    have : ∀ b : Byte, b &&& 0xfc#8 = 0#8 → ¬ ((b &&& 0xc3#8) &&& 0x80#8 ≠ 0#8) := by decide +kernel
    exact this _ h6
  have : handed (TL4.step (updateApp E I) s (.rx t len)).2 = [(t, len)] := by
    unfold TL4.step TL4.exec TL4.processTelegram
    dsimp only
    rw [if_neg hf.nonzero, if_neg (by rw [hf.unicast]; decide), if_neg (fun k => k hf.dest), if_neg h7]
    unfold TL4.direct acquire sendPrepared
    dsimp only
    rw [if_pos h6, if_pos hfree]
    dsimp only [Option.map, Option.getD]
    split <;> rfl
  rw [this]
  rfl

/-- Non-vacuity: while 1.1.1 is connected, 2.2.2 erases the unlocked device. -/
example : (TL4.run (updateApp demoEnv demoInfo) demoDev
      [.rx (fun i => [0xB0#8, 0x11#8, 1#8, 0x11#8, 5#8, 0x60#8, 0x80#8].getD i 0#8) 8,
       .rx (demoTel 0x1101#16 0x1105#16 0x42#8 (0xbf#8 :: demoUid)) 22, .txDone true,
       .rx (demoTel 0x2202#16 0x1105#16 0x02#8 [0xea#8]) 10]).1.phase = .openIdle ∧
    handed (TL4.run (updateApp demoEnv demoInfo) demoDev
      [.rx (fun i => [0xB0#8, 0x11#8, 1#8, 0x11#8, 5#8, 0x60#8, 0x80#8].getD i 0#8) 8,
       .rx (demoTel 0x1101#16 0x1105#16 0x42#8 (0xbf#8 :: demoUid)) 22, .txDone true,
       .rx (demoTel 0x2202#16 0x1105#16 0x02#8 [0xea#8]) 10]).2 =
      [(demoTel 0x1101#16 0x1105#16 0x42#8 (0xbf#8 :: demoUid), 22),
       (demoTel 0x2202#16 0x1105#16 0x02#8 [0xea#8], 10)] := ⟨rfl, rfl⟩

/-! ## A whole update session -/

theorem update_appOk (E : Env) (I : Info) : AppOk (updateApp E I) where
  apci := by
    intro d t l b h
    have h : (updateApci E I d t l b).2.2 = true := h
    show (updateApci E I d t l b).2.1 6 &&& 0x80#8 = 0#8
    cases hd : d.st with
    | none =>
      have e : updateApci E I d t l b = (d, b, false) := by unfold updateApci; rw [hd]
      rw [e] at h; cases h
    | some s =>
      by_cases h2 : apciCommand t = 0x2F8#16
      · have e : updateApci E I d t l b =
            match processUsermsg E I s t (BitVec.ofNat 8 l) with
            | none => ({ d with st := none }, b, false)
            | some (s', r) => ({ d with st := some s' }, writeResponse b r, true) := by
          unfold updateApci
          rw [hd]
          dsimp only
          rw [if_neg (by rw [h2]; decide), if_pos h2]
          cases processUsermsg E I s t (BitVec.ofNat 8 l) <;> rfl
        cases hp : processUsermsg E I s t (BitVec.ofNat 8 l) with
        | none => rw [e, hp] at h; cases h
        | some r =>
          rw [e, hp]
          show writeResponse b r.2 6 &&& 0x80#8 = 0#8
          unfold writeResponse
          rw [storeBytes_get, if_neg (by omega)]
          have : prepareReturnTelegram b r.2.payload.length r.2.cmd 6 = 0x02#8 := rfl
          rw [this]; decide
      · have k := C107_other_services E I d s t l b hd (fun k => h2 (service_update.mpr k))
        by_cases h1 : IsMemoryWrite t
        · have e : updateApci E I d t l b = (d, deprecatedMemoryWrite b, true) := by
            unfold updateApci
            rw [hd]
            dsimp only
            rw [if_pos (service_memory.mpr h1)]
          rw [e]
          have : deprecatedMemoryWrite b 6 = 0x42#8 := rfl
          show deprecatedMemoryWrite b 6 &&& 0x80#8 = 0#8
          rw [this]; decide
        · by_cases h3 : Service 0x380#10 t
          · rw [k.2.2.1 h3] at h; cases h
          · rw [k.2.2.2 h1 h3] at h; cases h
  broadcast := by
    intro d t l f b h
    have h : (updateBroadcast d t l).2 = some f := h
    unfold updateBroadcast at h
    split at h
    · have : iaResponse = f := Option.some.inj h
      subst this
      have : iaResponse b 6 = 0x01#8 := rfl
      rw [this]; decide
    · exact absurd h (by simp)
  group := by intro d t l f b h; exact absurd h (by simp [updateApp, updateGroup])

theorem session_reach {A : App BootDev} {p : Word} {req : Nat → Buf} {y0 y : Sys BootDev}
    (h : Session A p req y0 y) : SysReach A p req y0 y := by
  induction h with
  | start => exact .start
  | environment y y' _ hs _ _ ih => exact .step _ _ ih hs
  | receive y t rest _ ht ih => exact .step _ _ ih (.receive y t rest _ ht)
  | other y op _ hf _ ih => exact .step _ _ ih (.other y op hf)

/-- What is handed over in one step is the received telegram, or nothing. -/
theorem handed_connected {E : Env} {I : Info} {s : TL4.State BootDev} {op : Op}
    (hc : ∀ t l, op = .rx t l → TL4.Spec.UnicastTo s.ownAddr t → TL4.Spec.isConnectionless t = false) :
    (handed (TL4.step (updateApp E I) s op).2).map Prod.fst =
      TL4.Spec.delivered (TL4.step (updateApp E I) s op).2 := by
  rcases step_trans (updateApp E I) s op with ⟨k, -⟩ | k
  · rw [k]; rfl
  · generalize (TL4.step (updateApp E I) s op).1 = s' at k
    generalize (TL4.step (updateApp E I) s op).2 = o at k ⊢
    have bit : ∀ b : Byte, b &&& 0xfc#8 = 0#8 → (b.extractLsb' 2 6 == 0#6) = true := by decide +kernel
    cases k with
    | individual tel len hu h6 htx hr =>
      exact absurd (hc tel len rfl ((forUs_iff s tel).mp hu)) (by
        have := bit _ h6; unfold TL4.Spec.isConnectionless; rw [this]; decide)
    | individualSend tel len r hu h6 htx hr hs =>
      exact absurd (hc tel len rfl ((forUs_iff s tel).mp hu)) (by
        have := bit _ h6; unfold TL4.Spec.isConnectionless; rw [this]; decide)
    | _ => rfl

theorem size_le (t : Buf) : telegramSize t + 1 ≤ 255 := by
  have : ∀ b : Byte, (b &&& 15#8).toNat ≤ 15 := by decide +kernel
  have := this (t 5)
  unfold telegramSize
  omega

/-- In a session only the client's telegrams are executed. -/
theorem session_other {E : Env} {I : Info} {p : Word} {s : TL4.State BootDev} {r : Nat} {op : Op}
    (hd : DevOk p s r) (hf : Foreign p s op)
    (hc : ∀ t l, op = .rx t l → TL4.Spec.UnicastTo s.ownAddr t → TL4.Spec.isConnectionless t = false) :
    handed (TL4.step (updateApp E I) s op).2 = [] := by
  rcases step_trans (updateApp E I) s op with ⟨k, -⟩ | k
  · rw [k]; rfl
  · generalize (TL4.step (updateApp E I) s op).1 = s' at k
    generalize (TL4.step (updateApp E I) s op).2 = o at k ⊢
    have bit : ∀ b : Byte, b &&& 0xfc#8 = 0#8 → (b.extractLsb' 2 6 == 0#6) = true := by decide +kernel
    have bit' : ∀ b : Byte, b &&& 0x80#8 = 0#8 → b.getLsbD 7 = false := by decide +kernel
    cases k with
    | individual tel len hu h6 htx hr =>
      exact absurd (hc tel len rfl ((forUs_iff s tel).mp hu)) (by
        have := bit _ h6; unfold TL4.Spec.isConnectionless; rw [this]; decide)
    | individualSend tel len r hu h6 htx hr hs =>
      exact absurd (hc tel len rfl ((forUs_iff s tel).mp hu)) (by
        have := bit _ h6; unfold TL4.Spec.isConnectionless; rw [this]; decide)
    | dataAccepted tel len hu h6 hn ha hp hs htx =>
      have hu' := (forUs_iff s tel).mp hu
      have := (hf hu').1 (bit' _ h6) (hc tel len rfl hu')
      rw [sender_eq, (hd.rcv hp).1] at ha
      exact absurd ha.symm this
    | _ => rfl

theorem session_sysOk {E : Env} {I : Info} {p d : Word} {req : Nat → Buf} (hreq : Requests p d req)
    {s : TL4.State BootDev} (hs : Reachable (updateApp E I) s) (hcl : s.phase = .closed) (hfree : s.tx = .free)
    {c : Buf} {len : Nat} (hu : TL4.Spec.UnicastTo s.ownAddr c) (hc : TL4.Spec.isConnect c = true)
    (hsrc : TL4.Spec.src c = p) {y : Sys BootDev}
    (hy : SysReach (updateApp E I) p req
      { dev := (TL4.step (updateApp E I) s (.rx c len)).1, current := 0, toDevice := [], toClient := [], log := [] } y) :
    ∃ r is as, SysOk p req y r is as := by
  induction hy with
  | start =>
    refine ⟨0, [], [], ?_⟩
    rw [connect_step _ s c len hcl hu hc]
    constructor
    · have := inv_step (updateApp E I) s (.rx c len) (inv_reachable _ s hs)
      rw [connect_step _ s c len hcl hu hc] at this; exact this
    · refine ⟨fun _ => ⟨hsrc, rfl⟩, fun h => absurd rfl h, fun h => absurd rfl h, fun h => ?_, fun h => by cases h⟩
      have : s.tx = .sending := h
      rw [hfree] at this; cases this
    all_goals simp
  | step y y' _ hst ih =>
    obtain ⟨r, is, as, h⟩ := ih
    exact sysOk_step _ (update_appOk E I) p d req hreq y y' r is as h hst

/-- **C107.** An update session: a client connects and transmits its commands one after the other, each
until it is acknowledged, over a bus that loses and duplicates telegrams. At every moment the updater is in
the state that results from executing the client's first `r` commands in order, each exactly once, and `r`
is the number of commands acknowledged or one more. -/
theorem C107_session (E : Env) (I : Info) (p d : Word) (req : Nat → Buf) (hreq : Requests p d req)
    (s : TL4.State BootDev) (hs : Reachable (updateApp E I) s) (hcl : s.phase = .closed) (hfree : s.tx = .free)
    (c : Buf) (len : Nat) (hu : TL4.Spec.UnicastTo s.ownAddr c) (hc : TL4.Spec.isConnect c = true)
    (hsrc : TL4.Spec.src c = p) (u : State) (hst : s.app.st = some u)
    (hmsg : ∀ i, IsUpdateMessage (req i) ∧ 9 ≤ telegramSize (req i) + 1) (y : Sys BootDev)
    (hy : Session (updateApp E I) p req
      { dev := (TL4.step (updateApp E I) s (.rx c len)).1, current := 0, toDevice := [], toClient := [], log := [] } y) :
    ∃ r, y.current ≤ r ∧ r ≤ y.current + 1 ∧
      y.dev.app.st = (Boot.run E I u
        ((List.range r).map fun i => message (req i) (telegramSize (req i) + 1))).map (·.1) := by
  obtain ⟨r, h1, h2, h3⟩ := C03_exactly_once (updateApp E I) (update_appOk E I) p d req hreq s hs hcl hfree c len
    hu hc hsrc y (session_reach hy)
  refine ⟨r, h2, h3, ?_⟩
  have main : y.dev.app.st = (y.log.map fun t => (t, telegramSize t + 1)).foldl (execute E I) (some u) := by
    clear h1 h2 h3 r
    induction hy with
    | start =>
      show (TL4.step (updateApp E I) s (.rx c len)).1.app.st = _
      rw [connect_step _ s c len hcl hu hc]
      exact hst
    | environment y y' _ _ hd hl ih => rw [hd, hl]; exact ih
    | receive y t rest hy ht ih =>
      obtain ⟨r, is, as, ok⟩ := session_sysOk hreq hs hcl hfree hu hc hsrc (session_reach hy)
      have hnum : TL4.Spec.isConnectionless t = false := by
        have : t ∈ y.toDevice := by rw [ht]; exact List.mem_cons_self
        rw [ok.toDevice] at this
        obtain ⟨i, -, rfl⟩ := List.mem_map.mp this
        have bit : ∀ b : Byte, (b.extractLsb' 6 2 == 0b01#2) = true → (b.extractLsb' 2 6 == 0#6) = false := by
          decide +kernel
        exact bit _ (hreq.numbered i)
      have key := handed_connected (E := E) (I := I) (s := y.dev) (op := .rx t (telegramSize t + 1))
        (by rintro t' l' ⟨⟩ _; exact hnum)
      have hpair : handed (TL4.step (updateApp E I) y.dev (.rx t (telegramSize t + 1))).2 =
          (TL4.Spec.delivered (TL4.step (updateApp E I) y.dev (.rx t (telegramSize t + 1))).2).map
            fun t => (t, telegramSize t + 1) := by
        rw [← key, List.map_map]
        conv => lhs; rw [← List.map_id (handed _)]
        apply List.map_congr_left
        intro m hm
        have := handed_mem hm
        injection this with e1 e2
        show m = (m.1, telegramSize m.1 + 1)
        rw [← e1, e2]
        exact Prod.ext e1.symm rfl
      show (TL4.step (updateApp E I) y.dev (.rx t (telegramSize t + 1))).1.app.st =
        ((y.log ++ TL4.Spec.delivered (TL4.step (updateApp E I) y.dev (.rx t (telegramSize t + 1))).2).map _).foldl _ _
      rw [List.map_append, List.foldl_append, ← ih, ← hpair,
        step_state E I _ _ (by rintro t' l' ⟨⟩; exact size_le t)]
    | other y op hy hf hcl' ih =>
      obtain ⟨r, is, as, ok⟩ := session_sysOk hreq hs hcl hfree hu hc hsrc (session_reach hy)
      have hnone := session_other (E := E) (I := I) ok.dev hf hcl'
      have hdel : TL4.Spec.delivered (TL4.step (updateApp E I) y.dev op).2 = [] := by
        rw [← handed_connected hcl', hnone]; rfl
      show (TL4.step (updateApp E I) y.dev op).1.app.st =
        ((y.log ++ TL4.Spec.delivered (TL4.step (updateApp E I) y.dev op).2).map _).foldl _ _
      rw [hdel, List.append_nil, ← ih]
      rcases step_trans (updateApp E I) y.dev op with ⟨k, -⟩ | k
      · rw [k]
      · generalize (TL4.step (updateApp E I) y.dev op).1 = s' at k
        generalize (TL4.step (updateApp E I) y.dev op).2 = o at k hnone
        cases k with
        | rxBroadcast tel len h => exact congrArg BootDev.st (broadcast_st _ _ _)
        | rxBroadcastSend tel len f h hf htx => exact congrArg BootDev.st (broadcast_st _ _ _)
        | individual tel len hu hc htx hr => exact absurd hnone (by simp [handed])
        | individualSend tel len r hu hc htx hr hs => exact absurd hnone (by simp [handed])
        | dataAccepted tel len hu hc hn ha hp hs htx => exact absurd hnone (by simp [handed, ctrlOut])
        | ackOk tel len hu hc h1 h2 hk hp ha hs =>
          show (a08 y.dev).app.st = _
          unfold a08
          dsimp only
          split <;> rfl
        | _ => rfl
  rw [main, h1, fold_run]
  have : messagesOf (((List.range r).map req).map fun t => (t, telegramSize t + 1)) =
      (List.range r).map fun i => message (req i) (telegramSize (req i) + 1) := by
    unfold messagesOf
    rw [List.map_map, List.filterMap_map, ← List.filterMap_eq_map]
    congr 1
    funext i
    show (if IsUpdateMessage (req i) ∧ 9 ≤ telegramSize (req i) + 1 then _ else _) = _
    rw [if_pos (hmsg i)]
    rfl
  rw [this]

/-! Non-vacuity: a client that asks for the unique id again and again; the first transmission is lost, the
second one is duplicated. -/

def demoCmd (i : Nat) : Buf :=
  demoTel 0x1101#16 0x1105#16 (0x42#8 ||| ((BitVec.ofNat 4 i).setWidth 8 <<< (2 : Nat))) [0xbe#8]

theorem demoCmd_ok : Requests 0x1101#16 0x1105#16 demoCmd ∧
    ∀ i, IsUpdateMessage (demoCmd i) ∧ 9 ≤ telegramSize (demoCmd i) + 1 := by
  have num : ∀ n : BitVec 4, ((0x42#8 ||| (n.setWidth 8 <<< (2 : Nat))).extractLsb' 6 2 == 0b01#2) = true := by
    decide +kernel
  have sq : ∀ n : BitVec 4, TL4.Spec.seqOf (0x42#8 ||| (n.setWidth 8 <<< (2 : Nat))) = n.toNat := by
    decide +kernel
  have sv : ∀ n : BitVec 4, (0x42#8 ||| (n.setWidth 8 <<< (2 : Nat))).extractLsb' 0 2 ++ 0xF8#8 = 0x2F8#10 := by
    decide +kernel
  refine ⟨⟨by decide, fun i => ?_, fun i => ?_, fun i => ?_, fun i => num _, fun i => ?_⟩, fun i => ⟨sv _, ?_⟩⟩
  · show (0x60#8 + BitVec.ofNat 8 (1 + 1)).getLsbD 7 = false
    decide
  · show (0x1105#16).extractLsb' 8 8 ++ (0x1105#16).extractLsb' 0 8 = (0x1105#16 : BitVec (8 + 8))
    decide
  · show (0x1101#16).extractLsb' 8 8 ++ (0x1101#16).extractLsb' 0 8 = (0x1101#16 : BitVec (8 + 8))
    decide
  · exact (sq _).trans (by simp)
  · show 9 ≤ 7 + ((0x60#8 + BitVec.ofNat 8 (1 + 1)) &&& 15#8).toNat + 1
    decide

def demoConnect : Buf := fun i => [0xB0#8, 0x11#8, 0x01#8, 0x11#8, 0x05#8, 0x60#8, 0x80#8].getD i 0#8

def demoBegin : Sys BootDev :=
  { dev := (TL4.step (updateApp demoEnv demoInfo) demoDev (.rx demoConnect 8)).1
    current := 0, toDevice := [], toClient := [], log := [] }

example : ∃ y, Session (updateApp demoEnv demoInfo) 0x1101#16 demoCmd demoBegin y ∧
    y.log.length = 1 ∧ demoDev.phase = .closed ∧ demoDev.tx = .free ∧
    TL4.Spec.UnicastTo demoDev.ownAddr demoConnect ∧ TL4.Spec.isConnect demoConnect = true ∧
    TL4.Spec.src demoConnect = 0x1101#16 ∧ demoDev.app.st = some demoStart := by
  let y1 : Sys BootDev := { demoBegin with toDevice := [demoCmd 0] }
  let y2 : Sys BootDev := { y1 with toDevice := [] }
  let y4 : Sys BootDev := { y1 with toDevice := [demoCmd 0, demoCmd 0] }
  let y5 := { y4 with toDevice := [demoCmd 0] }.device (updateApp demoEnv demoInfo) 0x1101#16
    (.rx (demoCmd 0) (telegramSize (demoCmd 0) + 1))
  let y6 := y5.device (updateApp demoEnv demoInfo) 0x1101#16 (.txDone true)
  let y7 := { y6 with toDevice := [] }.device (updateApp demoEnv demoInfo) 0x1101#16
    (.rx (demoCmd 0) (telegramSize (demoCmd 0) + 1))
  have r1 : Session (updateApp demoEnv demoInfo) 0x1101#16 demoCmd demoBegin y1 :=
    .environment _ _ .start (.clientSend _) rfl rfl
  have r2 : Session (updateApp demoEnv demoInfo) 0x1101#16 demoCmd demoBegin y2 :=
    .environment _ _ r1 (.lose y1 [] (demoCmd 0) [] rfl) rfl rfl
  have r3 : Session (updateApp demoEnv demoInfo) 0x1101#16 demoCmd demoBegin y1 :=
    .environment _ _ r2 (.clientSend y2) rfl rfl
  have r4 : Session (updateApp demoEnv demoInfo) 0x1101#16 demoCmd demoBegin y4 :=
    .environment _ _ r3 (.dup y1 [] (demoCmd 0) [] rfl) rfl rfl
  have r5 : Session (updateApp demoEnv demoInfo) 0x1101#16 demoCmd demoBegin y5 := .receive y4 _ _ r4 rfl
  have r6 : Session (updateApp demoEnv demoInfo) 0x1101#16 demoCmd demoBegin y6 :=
    .other y5 _ r5 trivial (by intro t l h; cases h)
  have r7 : Session (updateApp demoEnv demoInfo) 0x1101#16 demoCmd demoBegin y7 := .receive y6 _ _ r6 rfl
  exact ⟨y7, r7, by decide +kernel, rfl, rfl, ⟨by decide, by decide, by decide⟩, by decide, by decide, rfl⟩

end Verif.Boot
