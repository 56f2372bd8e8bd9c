import Verif.Boot.PropsProgram
import Verif.Boot.DecompLemmas

/-!
# C44: differential update, C53: memory safety of the update commands
-/

namespace Verif.Boot
open Verif.Iap Spec Decomp.Spec

/-- Bytes produced so far for the page under construction. -/
def pageBytes (d : Decomp.State) : List Byte := bytesAt d.scratchpad 0 d.bytesToFlash

theorem receive_decompress {E : Env} {I : Info} {s : State} (hu : s.deviceLocked = DEVICE_UNLOCKED)
    (hD : E.decompressorBuilt = true) (c : List Byte) (hc : 1 ≤ c.length ∧ c.length ≤ 254) :
    receive E I s (msgDecompress c) = (Decomp.putBytes E s.hw.flash s.decomp c).map
      (fun d => ({ s with decomp := d }, ok)) := by
  have hlo : (code2UPDCommand 0xec#8).2.1 = 1 := by decide
  have hhi : (code2UPDCommand 0xec#8).2.2 = 254 := by decide
  rw [msgDecompress, receive_unlocked (by omega) hu (by decide) (by omega) (by omega)]
  show updSendDataToDecompress E s (fun i => c.getD i 0#8) c.length = _
  unfold updSendDataToDecompress
  rw [hD, bytesAt_getD]
  rfl

theorem decompress_all {E : Env} {I : Info} (hD : E.decompressorBuilt = true) (chunks : List (List Byte)) :
    ∀ {s : State} {d' : Decomp.State}, s.deviceLocked = DEVICE_UNLOCKED →
    (∀ d ∈ chunks, 1 ≤ d.length ∧ d.length ≤ 254) →
    Decomp.putBytes E s.hw.flash s.decomp chunks.flatten = some d' →
    run E I s (chunks.map msgDecompress) = some ({ s with decomp := d' }, chunks.map (fun _ => ok)) := by
  induction chunks with
  | nil =>
    intro s d' _ _ h
    obtain rfl := Option.some.inj h
    rfl
  | cons c cs ih =>
    intro s d' hu hc h
    rw [List.flatten_cons, Decomp.putBytes_append] at h
    cases h1 : Decomp.putBytes E s.hw.flash s.decomp c with
    | none => rw [h1] at h; exact absurd h (by simp)
    | some d1 =>
      rw [h1] at h
      have e1 := receive_decompress (I := I) hu hD c (hc c List.mem_cons_self)
      rw [h1] at e1
      have e2 := ih (s := { s with decomp := d1 }) hu (fun x hx => hc x (List.mem_cons_of_mem _ hx)) h
      rw [List.map_cons, List.map_cons]
      unfold run
      unfold receive at e1
      rw [e1]
      dsimp only [Option.map, Option.bind]
      rw [e2]

/-- **C44.** Feed a well-formed differential stream to an unlocked device, split over telegrams in any
way. Every telegram is acknowledged, the page under construction is extended by exactly the bytes the
stream denotes (raw data, bytes of the application currently in flash, bytes of the two saved
pages), the automaton is ready for the next command and nothing else has changed. -/
theorem C44_stream_reproduces_page (E : Env) (I : Info) (s : State)
    (hu : s.deviceLocked = DEVICE_UNLOCKED) (hD : E.decompressorBuilt = true)
    (hp : s.decomp.phase = .expectCommandByte) (hb : s.decomp.startAddrOfFlash.toNat ≤ E.top)
    (cs : List Cmd) (hwf : ∀ c ∈ cs, WF (E.top - s.decomp.startAddrOfFlash.toNat) c)
    (new : List Byte)
    (hnew : new = outputAll (fun i => s.hw.flash (s.decomp.startAddrOfFlash.toNat + i)) s.decomp.oldPages cs)
    (hfit : (pageBytes s.decomp).length + new.length ≤ 256)
    (telegrams : List (List Byte)) (hsplit : telegrams.flatten = encodeAll cs)
    (hsizes : ∀ t ∈ telegrams, 1 ≤ t.length ∧ t.length ≤ 254) :
    ∃ d', run E I s (telegrams.map msgDecompress)
        = some ({ s with decomp := d' }, telegrams.map (fun _ => ok)) ∧
      pageBytes d' = pageBytes s.decomp ++ new ∧ d'.phase = .expectCommandByte ∧
      d'.oldPages = s.decomp.oldPages ∧ d'.startAddrOfFlash = s.decomp.startAddrOfFlash ∧
      d'.startAddrOfPageToBeFlashed = s.decomp.startAddrOfPageToBeFlashed := by
  subst hnew
  unfold pageBytes at hfit
  rw [bytesAt_length] at hfit
  obtain ⟨d', e1, e2⟩ := Decomp.stream_done (E := E) (f := s.hw.flash) cs s.decomp hp hwf hb hfit
  refine ⟨d', ?_, e2.data, e2.phase, e2.old, e2.base, e2.page⟩
  rw [← hsplit] at e1
  exact decompress_all hD telegrams hu hsizes e1

/-- Non-vacuity: raw bytes, a copy from the flash and a copy from the saved pages, split inside the
commands, from power-up. -/
example : (∀ c ∈ [Cmd.raw false [1#8, 2#8, 3#8], .copyFlash true 0x10 2, .copyOldPages false 4 1],
      WF (demoEnv.top - demoStart.decomp.startAddrOfFlash.toNat) c) ∧
    (run demoEnv demoInfo demoStart (msgUnlock demoUid ::
      [[3#8, 1#8], [2#8, 3#8, 0xC0#8, 2#8, 0#8], [0#8, 0x10#8, 0x81#8, 0x80#8, 0#8, 4#8]].map
        msgDecompress)).map (fun r => pageBytes r.1.decomp) = some [1#8, 2#8, 3#8, 0xFF#8, 0xFF#8, 0#8] ∧
    encodeAll [Cmd.raw false [1#8, 2#8, 3#8], .copyFlash true 0x10 2, .copyOldPages false 4 1]
      = [[3#8, 1#8], [2#8, 3#8, 0xC0#8, 2#8, 0#8], [0#8, 0x10#8, 0x81#8, 0x80#8, 0#8, 4#8]].flatten := by
  refine ⟨?_, by decide +kernel, by decide⟩
  have hb : demoStart.decomp.startAddrOfFlash.toNat = 0x1000 := by decide +kernel
  rw [hb]
  intro c hc
  simp only [List.mem_cons, List.not_mem_nil, or_false] at hc
  rcases hc with rfl | rfl | rfl
  · exact ⟨by decide, by decide⟩
  · exact ⟨by decide, by decide, by decide⟩
  · exact ⟨by decide, by decide⟩

theorem receive_programDecompressed {E : Env} {I : Info} {s : State} (hu : s.deviceLocked = DEVICE_UNLOCKED)
    (crc : U32) : receive E I s (msgProgramDecompressed crc)
      = some (updProgramDecompressedDataToFlash E s (fun i => (le32 crc).getD i 0#8)) := by
  have hlo : (code2UPDCommand 0xeb#8).2.1 = 4 := by decide
  have hhi : (code2UPDCommand 0xeb#8).2.2 = 4 := by decide
  have hl : (le32 crc).length = 4 := rfl
  rw [msgProgramDecompressed, receive_unlocked (by omega) hu (by decide) (by omega) (by omega)]
  rfl

/-- **C44.** If the request to flash the page under construction is answered with success, its CRC-32
was the transmitted one, the page lies in the application area and now holds these bytes, no other
page has changed, and the previous content of the page has been saved for later copies. Holds for
every pattern of failing flash operations and every reachable state. -/
theorem C44_page_flashed (E : Env) (L : Layout E) (I : Info) (hw : Hw) (ram : Nat → Byte)
    (ms : List (List Byte)) (hm : ∀ m ∈ ms, Telegram m) (s s' : State) (rs : List Resp)
    (h : run E I (init E hw ram) ms = some (s, rs)) (crc : U32)
    (hp : receive E I s (msgProgramDecompressed crc) = some (s', ok)) :
    crc32Std (pageBytes s.decomp) = crc ∧
    InsideApplication E s.decomp.startAddrOfPageToBeFlashed 256 ∧
    (∀ i, i < (pageBytes s.decomp).length →
      s'.hw.flash (s.decomp.startAddrOfPageToBeFlashed.toNat + i) = (pageBytes s.decomp).getD i 0#8) ∧
    (∀ x, x / 256 ≠ s.decomp.startAddrOfPageToBeFlashed.toNat / 256 → s'.hw.flash x = s.hw.flash x) ∧
    (∀ i, i < 256 → s'.decomp.oldPages i = s.decomp.oldPages (256 + i) ∧
      s'.decomp.oldPages (256 + i) = s.hw.flash (s.decomp.startAddrOfPageToBeFlashed.toNat + i)) ∧
    s'.decomp.startAddrOfPageToBeFlashed = s.decomp.startAddrOfPageToBeFlashed + 256#32 ∧
    pageBytes s'.decomp = [] := by
  obtain ⟨buf, -, hi⟩ := run_buf L ms hm .start (init_inv L hw ram) h
  have hu : s.deviceLocked = DEVICE_UNLOCKED := by
    rcases unlocked_of_reply (d := le32 crc)
      (show 4 < 255 by omega) ⟨by decide, by decide, by decide⟩ hp with h | h
    · exact h
    · exact absurd rfl h.2
  rw [receive_programDecompressed hu] at hp
  have hp := Option.some.inj hp
  unfold updProgramDecompressedDataToFlash at hp
  split at hp
  · exact absurd (congrArg Prod.snd hp) (by decide : status 0x02#8 ≠ ok)
  · split at hp
    · exact absurd (congrArg Prod.snd hp) (by decide : status 0x5d#8 ≠ ok)
    · rename_i hal
      have hal' : addressAllowedToProgram E s.decomp.startAddrOfPageToBeFlashed
          (BitVec.ofNat 32 s.decomp.bytesToFlash) false = true := by simpa using hal
      obtain ⟨a1, a2, a3, a4⟩ := decomp_allowed L hi.decomp hal'
      have hcnt := hi.decomp.count
      have hsz := L.size
      have haf := appFirst_ge E
      split at hp
      · exact absurd (congrArg Prod.snd hp) (by decide : status 0x5e#8 ≠ ok)
      · rename_i hcrc
        rw [load_le32] at hcrc
        have hcrc : Decomp.getCrc32 s.decomp = crc := by apply Classical.not_not.mp; exact hcrc
        obtain ⟨rfl, hst⟩ := Prod.mk.inj hp
        have hst : (Decomp.pageCompletedDoFlash E s.hw s.decomp).1 = UDP_IAP_SUCCESS := by
          simp only [lastError, status, ok, Resp.mk.injEq, List.cons.injEq, and_true, true_and] at hst
          exact hst
        refine ⟨by rw [← crc_eq]; exact hcrc, ⟨a1, a2, by omega⟩, ?_, ?_, ?_, rfl, rfl⟩
        · intro i hlt
          unfold pageBytes at hlt ⊢
          rw [bytesAt_length] at hlt
          rw [bytesAt_get hlt, Nat.zero_add]
          show (Decomp.pageCompletedDoFlash E s.hw s.decomp).2.1.flash _ = _
          unfold Decomp.pageCompletedDoFlash at hst ⊢
          dsimp only at hst ⊢
          split
          · rename_i hsame
            rw [List.all_eq_true] at hsame
            have := hsame i (List.mem_range.mpr hlt)
            simpa using this
          · rename_i hsame
            rw [if_neg hsame] at hst
            exact (exec_spec L _ _ _ 256 a1 (by omega) a2 a3).2.2.1 hst i (by omega)
        · intro x hx
          show (Decomp.pageCompletedDoFlash E s.hw s.decomp).2.1.flash x = _
          unfold Decomp.pageCompletedDoFlash
          dsimp only
          split
          · rfl
          · rw [(exec_spec L _ _ _ 256 a1 (by omega) a2 a3).2.1 x (by unfold InR; omega)]
            have hpg : Decomp.getFlashPageNumberToBeFlashed s.decomp
                = s.decomp.startAddrOfPageToBeFlashed.toNat / 256 := by
              unfold Decomp.getFlashPageNumberToBeFlashed; omega
            rw [hpg]
            exact (erasePages_spec L s.hw _ _ (Nat.le_refl _) (by omega) (by omega)).frame x (by omega)
        · intro i hlt
          refine ⟨?_, ?_⟩
          · show (if i < 256 then _ else _) = _
            rw [if_pos hlt, Nat.add_comm]
          · show (if 256 + i < 256 then _ else _) = _
            rw [if_neg (by omega), Nat.add_sub_cancel_left]

/-- **C44.** On working hardware such a request succeeds whenever its CRC-32 is right and the page is
not empty and lies in the application area. -/
theorem C44_page_flash_succeeds (E : Env) (L : Layout E) (I : Info) (hw : Hw) (ram : Nat → Byte)
    (ms : List (List Byte)) (hm : ∀ m ∈ ms, Telegram m) (s : State) (rs : List Resp)
    (h : run E I (init E hw ram) ms = some (s, rs)) (hu : s.deviceLocked = DEVICE_UNLOCKED)
    (hD : E.decompressorBuilt = true) (hf : ∀ k, E.fault k = none) (hne : pageBytes s.decomp ≠ [])
    (hin : InsideApplication E s.decomp.startAddrOfPageToBeFlashed 256) :
    ∃ s', receive E I s (msgProgramDecompressed (crc32Std (pageBytes s.decomp))) = some (s', ok) := by
  obtain ⟨buf, -, hi⟩ := run_buf L ms hm .start (init_inv L hw ram) h
  obtain ⟨a1, a2, a3⟩ := hin
  have hcnt := hi.decomp.count
  have hsz := L.size
  have haf := appFirst_ge E
  have hpos : 0 < s.decomp.bytesToFlash := by
    rcases Nat.eq_zero_or_pos s.decomp.bytesToFlash with h0 | h0
    · exact absurd (by unfold pageBytes; rw [h0]; rfl) hne
    · exact h0
  have hal : addressAllowedToProgram E s.decomp.startAddrOfPageToBeFlashed
      (BitVec.ofNat 32 s.decomp.bytesToFlash) false = true := by
    rw [allowed_iff L]
    refine ⟨a1, ?_, a2, ?_⟩
    · intro h0
      have := congrArg BitVec.toNat h0
      simp only [BitVec.toNat_ofNat] at this
      omega
    · simp only [BitVec.toNat_add, BitVec.toNat_sub, BitVec.toNat_ofNat]
      omega
  have hst : (Decomp.pageCompletedDoFlash E s.hw s.decomp).1 = UDP_IAP_SUCCESS := by
    unfold Decomp.pageCompletedDoFlash
    dsimp only
    split
    · rfl
    · have hpg : Decomp.getFlashPageNumberToBeFlashed s.decomp
          = s.decomp.startAddrOfPageToBeFlashed.toNat / 256 := by
        unfold Decomp.getFlashPageNumberToBeFlashed; omega
      rw [hpg]
      have he := erasePages_spec L s.hw (s.decomp.startAddrOfPageToBeFlashed.toNat / 256)
        (s.decomp.startAddrOfPageToBeFlashed.toNat / 256) (Nat.le_refl _) (by omega) (by omega)
      refine (exec_spec L _ _ _ 256 a1 (by omega) a2 (by omega)).2.2.2 hf (.inl rfl) ?_
      intro i hlt
      exact he.done (he.live hf) _ (by omega) (by omega)
  rw [receive_programDecompressed hu]
  unfold updProgramDecompressedDataToFlash
  rw [hD, if_neg (by decide), hal, if_neg (by decide), load_le32]
  have hc : Decomp.getCrc32 s.decomp = crc32Std (pageBytes s.decomp) := crc_eq _
  rw [if_neg (fun h => h hc)]
  dsimp only
  rw [hst]
  exact ⟨_, rfl⟩

/-- Non-vacuity of both: the page of the previous example is flashed. -/
example : (run demoEnv demoInfo demoStart (msgUnlock demoUid :: msgDecompress [3#8, 1#8, 2#8, 3#8] ::
      [msgProgramDecompressed (crc32Std [1#8, 2#8, 3#8])])).map
        (fun r => (r.2, bytesAt r.1.hw.flash 0x1000 4))
      = some ([ok, ok, ok], [1#8, 2#8, 3#8, 0#8]) := by decide +kernel

/-! ## C53 -/

/-- **C53, part.** On a bootloader built without the decompressor no sequence of telegrams triggers an
access outside the buffers. -/
theorem C53_no_undefined_access_partial (E : Env) (I : Info) (hD : E.decompressorBuilt = false)
    (ms : List (List Byte)) : ∀ s : State, ∃ r, run E I s ms = some r := by
  induction ms with
  | nil => intro s; exact ⟨_, rfl⟩
  | cons m ms ih =>
    intro s
    have : ∃ r, receive E I s m = some r := by
      unfold receive handle
      dsimp only
      split
      · exact ⟨_, rfl⟩
      split
      · exact ⟨_, rfl⟩
      split
      · exact ⟨_, rfl⟩
      split
      · exact ⟨_, rfl⟩
      generalize (code2UPDCommand (m.getD 0 0#8)).1 = c
      by_cases hc : c = 0xec#8
      · subst hc
        show ∃ r, updSendDataToDecompress E s _ _ = some r
        unfold updSendDataToDecompress
        rw [hD]
        exact ⟨_, rfl⟩
      · unfold dispatch
        simp only [if_neg hc, ← apply_ite (f := some)]
        exact ⟨_, rfl⟩
    obtain ⟨r1, e1⟩ := this
    obtain ⟨r2, e2⟩ := ih r1.1
    refine ⟨(r2.1, r1.2 :: r2.2), ?_⟩
    unfold run
    unfold receive at e1
    rw [e1]
    simp [e2]

example : ∃ E : Env, E.decompressorBuilt = false ∧ Layout E :=
  ⟨{ demoEnv with decompressorBuilt := false }, rfl, ⟨by decide, by decide, by decide, by decide⟩⟩

/-- **C53, finding.** With the decompressor a stream that announces more than a page of raw data writes
behind the page buffer: nothing checks the bounds. -/
theorem C53_decompressor_writes_behind_page :
    run demoEnv demoInfo demoStart [msgUnlock demoUid,
      msgDecompress (0x41#8 :: 0x01#8 :: List.replicate 250 0#8),
      msgDecompress (List.replicate 7 0#8)] = none := by decide +kernel

/-- **C53, finding.** Likewise a copy command can read behind the two saved pages. -/
theorem C53_decompressor_reads_behind_saved_pages :
    run demoEnv demoInfo demoStart [msgUnlock demoUid,
      msgDecompress [0x82#8, 0x80#8, 0x01#8, 0xFF#8]] = none := by decide +kernel

/-- **C53, finding.** A programming request for 1265 bytes (the full buffer) is programmed in whole pages:
the 15 bytes of RAM behind the buffer are read and end up in the flash. -/
theorem C53_program_copies_ram_behind_buffer (E : Env) (L : Layout E) (I : Info) (hw : Hw)
    (ram : Nat → Byte) (ms : List (List Byte)) (hm : ∀ m ∈ ms, Telegram m) (s s' : State)
    (rs : List Resp) (h : run E I (init E hw ram) ms = some (s, rs)) (a crc : U32)
    (hp : receive E I s (msgProgram 1265#16 a crc) = some (s', ok)) (i : Nat) (hi : 1265 ≤ i) (hi' : i < 1280) :
    s'.hw.flash (a.toNat + i) = ram i := by
  obtain ⟨buf, hb, hinv⟩ := run_buf L ms hm .start (init_inv L hw ram) h
  have hu : s.deviceLocked = DEVICE_UNLOCKED := by
    rcases unlocked_of_reply (d := le16 1265#16 ++ le32 a ++ le32 crc)
      (show 10 < 255 by omega) ⟨by decide, by decide, by decide⟩ hp with h | h
    · exact h
    · exact absurd rfl h.2
  rw [receive_program hu] at hp
  have hp := Option.some.inj hp
  have hs := updProgram_spec L hinv 1265#16 a crc
  rw [hp] at hs
  dsimp only at hs
  rcases hs with ⟨-, hne⟩ | ⟨hT, hpos, hn, hcrc, hr⟩
  · exact absurd rfl hne
  · obtain ⟨rfl, h2⟩ := Prod.mk.inj hr
    have hst : (programAll E s.hw s.ram (1265#16).toNat a).1 = UDP_IAP_SUCCESS := by
      simp only [status, ok, Resp.mk.injEq, List.cons.injEq, and_true, true_and] at h2
      exact h2.symm
    have hspec := programAll_spec L s.hw s.ram (1265#16).toNat a hT hpos
    show (programAll E s.hw s.ram (1265#16).toNat a).2.flash (a.toNat + i) = _
    rw [hspec.2.2.1 hst i (by show i < (1265 + 255) / 256 * 256; omega)]
    exact hinv.beyond i hi

end Verif.Boot
