import Verif.Boot.Props

/-!
# C40: programming is integrity-checked
-/

namespace Verif.Boot
open Verif.Iap Spec

theorem crc_eq (l : List Byte) : Crc.crc32 0xFFFFFFFF#32 l = crc32Std l := Crc.C43_crc32_is_standard _ _

theorem receive_program {E : Env} {I : Info} {s : State} (hu : s.deviceLocked = DEVICE_UNLOCKED)
    (n : Word) (a crc : U32) : receive E I s (msgProgram n a crc)
      = some (updProgram E s (fun i => (le16 n ++ le32 a ++ le32 crc).getD i 0#8)) := by
  have hlo : (code2UPDCommand 0xee#8).2.1 = 10 := by decide
  have hhi : (code2UPDCommand 0xee#8).2.2 = 10 := by decide
  have hl : (le16 n ++ le32 a ++ le32 crc).length = 10 := rfl
  rw [msgProgram, receive_unlocked (by omega) hu (by decide) (by omega) (by omega)]
  rfl

/-- What a programming request does, in terms of the buffer. -/
theorem updProgram_spec {E : Env} (L : Layout E) {ram0 : Nat → Byte} {s : State} {buf : List Byte}
    (hi : BufInv E ram0 s buf) (n : Word) (a crc : U32) :
    let r := updProgram E s (fun i => (le16 n ++ le32 a ++ le32 crc).getD i 0#8)
    (r.1.hw.flash = s.hw.flash ∧ r.2 ≠ ok) ∨
    (Target E a n.toNat ∧ 0 < n.toNat ∧ n.toNat = buf.length ∧ crc = crc32Std buf ∧
      r = ({ s with hw := (programAll E s.hw s.ram n.toNat a).2, ramBufferPosition := 0#16 },
        status (programAll E s.hw s.ram n.toNat a).1)) := by
  obtain ⟨h1, h2, h3⟩ := load_program n a crc
  dsimp only
  unfold updProgram
  rw [h1, h2, h3]
  dsimp only
  split
  · exact .inl ⟨rfl, (by decide : status 0x5d#8 ≠ ok)⟩
  · rename_i hal
    have hal' : addressAllowedToProgram E a (BitVec.ofNat 32 n.toNat) false = true := by simpa using hal
    split
    · exact .inl ⟨rfl, (by decide : status 0x5b#8 ≠ ok)⟩
    · rename_i hcnt
      split
      · exact .inl ⟨rfl, (by decide : status 0x4f#8 ≠ ok)⟩
      · split
        · exact .inl ⟨rfl, (by decide : status 0x50#8 ≠ ok)⟩
        · rename_i hgt hlt
          have hn : n.toNat = buf.length := by rw [hi.pos] at hgt hlt; omega
          split
          · exact .inl ⟨rfl, (by decide : status 0x5e#8 ≠ ok)⟩
          · rename_i hcrc
            have hcrc : crc = crc32Std buf := by
              have : Crc.crc32 0xFFFFFFFF#32 (bytesAt s.ram 0 n.toNat) = crc := by
                apply Classical.not_not.mp; exact hcrc
              rw [hn, hi.data, crc_eq] at this
              exact this.symm
            obtain ⟨hpos, hT⟩ := target_of_allowed L (by omega) hal'
            rcases hT with hT | hT
            · exact .inr ⟨hT, hpos, hn, hcrc, rfl⟩
            · have hb := programAll_beyond s.hw s.ram n.toNat a hpos hT
              refine .inl ⟨hb.2.1, ?_⟩
              intro h
              simp only [lastError, ok, status, Resp.mk.injEq, List.cons.injEq, and_true, true_and] at h
              exact hb.1 h

/-- A programming request at page-aligned address `a` for `n` bytes stays inside the application area. -/
def InsideApplication (E : Env) (a : U32) (n : Nat) : Prop :=
  a.toNat % 256 = 0 ∧ appFirst E ≤ a.toNat ∧ a.toNat + (n + 255) / 256 * 256 ≤ E.top

/-- The state is unlocked as soon as a programming request is not refused for that reason. -/
theorem unlocked_of_reply {E : Env} {I : Info} {s s' : State} {c : Byte} {d : List Byte} {r : Resp}
    (hl : d.length < 255) (hc : c ≠ 0xbf#8 ∧ c ≠ 0xbe#8 ∧ c ≠ 0xbc#8)
    (h : receive E I s (c :: d) = some (s', r)) :
    s.deviceLocked = DEVICE_UNLOCKED ∨ (s' = s ∧ r ≠ ok) := by
  rcases receive_cons hl h with ⟨e, he, h1, -⟩ | ⟨-, -, -, hu, -⟩
  · right
    obtain ⟨rfl, rfl⟩ := Prod.mk.inj he
    exact ⟨rfl, by rcases h1 with rfl | rfl | rfl <;> decide⟩
  · rcases hu with hu | hu | hu | hu
    · exact .inl hu
    · exact absurd hu hc.1
    · exact absurd hu hc.2.1
    · exact absurd hu hc.2.2

/-- **C40.** After any conversation `ms`/`rs` since power-up: if a programming request for `n` bytes at
`a` with checksum `crc` is answered with success, then exactly `n` bytes had been received and
buffered, `crc` is their standard CRC-32, the flash now holds exactly these bytes at `a`, and no byte
outside the pages of the request has changed. -/
theorem C40_program_success (E : Env) (L : Layout E) (I : Info) (hw : Hw) (ram : Nat → Byte)
    (ms : List (List Byte)) (hm : ∀ m ∈ ms, Telegram m) (s s' : State) (rs : List Resp)
    (h : run E I (init E hw ram) ms = some (s, rs)) (n : Word) (a crc : U32)
    (hp : receive E I s (msgProgram n a crc) = some (s', ok)) :
    ∃ buf, Buffered (ms.zip rs) buf ∧ buf.length = n.toNat ∧ crc32Std buf = crc ∧
      InsideApplication E a n.toNat ∧
      (∀ i, i < n.toNat → s'.hw.flash (a.toNat + i) = buf.getD i 0#8) ∧
      (∀ x, ¬ (a.toNat ≤ x ∧ x < a.toNat + (n.toNat + 255) / 256 * 256) →
        s'.hw.flash x = s.hw.flash x) := by
  obtain ⟨buf, hb, hi⟩ := run_buf L ms hm .start (init_inv L hw ram) h
  refine ⟨buf, by simpa using hb, ?_⟩
  have hu : s.deviceLocked = DEVICE_UNLOCKED := by
    rcases unlocked_of_reply (d := le16 n ++ le32 a ++ le32 crc)
      (show 10 < 255 by omega) ⟨by decide, by decide, by decide⟩ hp with h | h
    · exact h
    · exact absurd rfl h.2
  rw [receive_program hu] at hp
  have hp := Option.some.inj hp
  have hs := updProgram_spec L hi n a crc
  rw [hp] at hs
  dsimp only at hs
  rcases hs with ⟨-, hne⟩ | ⟨hT, hpos, hn, hcrc, hr⟩
  · exact absurd rfl hne
  · obtain ⟨rfl, h2⟩ := Prod.mk.inj hr
    have hst : (programAll E s.hw s.ram n.toNat a).1 = UDP_IAP_SUCCESS := by
      simp only [status, ok, Resp.mk.injEq, List.cons.injEq, and_true, true_and] at h2
      exact h2.symm
    have hspec := programAll_spec L s.hw s.ram n.toNat a hT hpos
    refine ⟨hn.symm, hcrc.symm, ⟨hT.align, hT.low, hT.high⟩, fun i hlt => ?_, fun x hx => ?_⟩
    · have hcap : n.toNat ≤ cap n.toNat := by unfold cap; omega
      show (programAll E s.hw s.ram n.toNat a).2.flash (a.toNat + i) = _
      rw [hspec.2.2.1 hst i (by omega)]
      have hd : bytesAt s.ram 0 buf.length = buf := hi.data
      conv => rhs; rw [← hd]
      rw [bytesAt_get (by omega), Nat.zero_add]
    · exact hspec.2.1 x hx

/-- **C40.** In every reachable state, a programming request changes the flash only if exactly the
announced number of bytes was buffered and their CRC-32 is the transmitted one, and then only inside
the pages of the request - also if flash operations fail. -/
theorem C40_program_changes_flash_only_after_checks (E : Env) (L : Layout E) (I : Info) (hw : Hw)
    (ram : Nat → Byte) (ms : List (List Byte)) (hm : ∀ m ∈ ms, Telegram m) (s s' : State)
    (rs : List Resp) (h : run E I (init E hw ram) ms = some (s, rs)) (n : Word) (a crc : U32) (r : Resp)
    (hp : receive E I s (msgProgram n a crc) = some (s', r)) (x : Nat)
    (hx : s'.hw.flash x ≠ s.hw.flash x) :
    InsideApplication E a n.toNat ∧ a.toNat ≤ x ∧ x < a.toNat + (n.toNat + 255) / 256 * 256 ∧
      ∃ buf, Buffered (ms.zip rs) buf ∧ buf.length = n.toNat ∧ crc32Std buf = crc := by
  obtain ⟨buf, hb, hi⟩ := run_buf L ms hm .start (init_inv L hw ram) h
  rcases unlocked_of_reply (d := le16 n ++ le32 a ++ le32 crc)
      (show 10 < 255 by omega) ⟨by decide, by decide, by decide⟩ hp with hu | hu
  · rw [receive_program hu] at hp
    have hp := Option.some.inj hp
    have hs := updProgram_spec L hi n a crc
    rw [hp] at hs
    dsimp only at hs
    rcases hs with ⟨heq, -⟩ | ⟨hT, hpos, hn, hcrc, hr⟩
    · exact absurd (by rw [heq]) hx
    · obtain ⟨rfl, -⟩ := Prod.mk.inj hr
      have hspec := programAll_spec L s.hw s.ram n.toNat a hT hpos
      have hin : InR a.toNat (cap n.toNat) x := by
        apply Classical.not_not.mp
        exact fun hc => hx (hspec.2.1 x hc)
      exact ⟨⟨hT.align, hT.low, hT.high⟩, hin.1, hin.2, buf, by simpa using hb, hn.symm, hcrc.symm⟩
  · rw [hu.1] at hx; exact absurd rfl hx

/-- One data telegram that fits. -/
theorem send_step {E : Env} (L : Layout E) {I : Info} {ram0 : Nat → Byte} {s : State} {buf : List Byte}
    (hi : BufInv E ram0 s buf) (hu : s.deviceLocked = DEVICE_UNLOCKED) (d : List Byte)
    (hd : 1 ≤ d.length) (hd' : d.length ≤ 254) (hf : buf.length + d.length ≤ 1265) :
    ∃ s', receive E I s (msgSendData d) = some (s', ok) ∧ BufInv E ram0 s' (buf ++ d) ∧ s'.hw = s.hw ∧
      s'.deviceLocked = DEVICE_UNLOCKED := by
  have hlo : (code2UPDCommand 0xef#8).2.1 = 1 := by decide
  have hhi : (code2UPDCommand 0xef#8).2.2 = 254 := by decide
  have hr : receive E I s (msgSendData d) = some (updSendData s (fun i => d.getD i 0#8) d.length) := by
    rw [msgSendData, receive_unlocked (by omega) hu (by decide) (by omega) (by omega)]
    rfl
  have hbs : bufferSize = 1265 := rfl
  have h2 : updSendData s (fun i => d.getD i 0#8) d.length
      = ({ s with ram := Decomp.blit s.ram s.ramBufferPosition.toNat (fun i => d.getD i 0#8) 0 d.length
                  ramBufferPosition := s.ramBufferPosition + BitVec.ofNat 16 d.length }, ok) := by
    unfold updSendData
    rw [if_neg (by rw [hi.pos]; omega)]
    rfl
  rw [h2] at hr
  refine ⟨_, hr, ?_, rfl, hu⟩
  have hm2 : Telegram (msgSendData d) := by
    unfold Telegram msgSendData; rw [List.length_cons]; omega
  obtain ⟨buf', hb', hi'⟩ := bufInv_step L hi hm2 hr
  have : buf' = buf ++ d := by
    rcases hb' with h | h
    · rw [h]; unfold bufStep msgSendData; dsimp only; rw [if_pos rfl, if_pos rfl]
    · exact absurd (show some 0xef#8 = some 0xee#8 from h.1) (by decide)
  rw [← this]; exact hi'

theorem send_all {E : Env} (L : Layout E) {I : Info} {ram0 : Nat → Byte} (chunks : List (List Byte)) :
    ∀ {s : State} {buf : List Byte}, BufInv E ram0 s buf → s.deviceLocked = DEVICE_UNLOCKED →
    (∀ d ∈ chunks, 1 ≤ d.length ∧ d.length ≤ 254) → buf.length + chunks.flatten.length ≤ 1265 →
    ∃ s', run E I s (chunks.map msgSendData) = some (s', chunks.map (fun _ => ok)) ∧
      BufInv E ram0 s' (buf ++ chunks.flatten) ∧ s'.hw = s.hw ∧ s'.deviceLocked = DEVICE_UNLOCKED := by
  induction chunks with
  | nil => intro s buf hi hu _ _; exact ⟨s, rfl, by simpa using hi, rfl, hu⟩
  | cons d ds ih =>
    intro s buf hi hu hc hf
    have hd := hc d List.mem_cons_self
    rw [List.flatten_cons, List.length_append] at hf
    obtain ⟨s1, e1, i1, w1, u1⟩ := send_step L (I := I) hi hu d hd.1 hd.2 (by omega)
    obtain ⟨s2, e2, i2, w2, u2⟩ := ih i1 u1 (fun x hx => hc x (List.mem_cons_of_mem _ hx))
      (by rw [List.length_append]; omega)
    refine ⟨s2, ?_, by rw [List.flatten_cons, ← List.append_assoc]; exact i2, by rw [w2, w1], u2⟩
    rw [List.map_cons, List.map_cons]
    unfold run
    unfold receive at e1
    rw [e1]
    simp [e2]

theorem run_append {E : Env} {I : Info} (m1 : List (List Byte)) : ∀ {s s1 : State} {r1 : List Resp}
    {m2 : List (List Byte)}, run E I s m1 = some (s1, r1) →
    run E I s (m1 ++ m2) = (run E I s1 m2).map (fun r => (r.1, r1 ++ r.2)) := by
  induction m1 with
  | nil =>
    intro s s1 r1 m2 h
    obtain ⟨rfl, rfl⟩ := Prod.mk.inj (Option.some.inj h)
    rw [List.nil_append]
    cases run E I s m2 with
    | none => rfl
    | some r => rfl
  | cons m ms ih =>
    intro s s1 r1 m2 h
    obtain ⟨a, b, e1, e2, e3⟩ := run_cons h
    obtain ⟨rfl, rfl⟩ := Prod.mk.inj e3
    rw [List.cons_append]
    conv => lhs; unfold run
    rw [e1]
    dsimp only [Option.bind]
    rw [ih (m2 := m2) (show run E I a.1 ms = some (b.1, b.2) from e2)]
    cases run E I b.1 m2 with
    | none => rfl
    | some r => rfl

/-- **C40.** The download procedure works: on an unlocked device with working, erased flash, the data sent
in telegrams of any sizes (at most 254 bytes each, at most 1265 in total) after an erase, followed by
the programming request with their number and CRC-32, is acknowledged at every step and ends up in
the flash. -/
theorem C40_download_works (E : Env) (L : Layout E) (I : Info) (hw : Hw) (ram : Nat → Byte)
    (ms : List (List Byte)) (hm : ∀ m ∈ ms, Telegram m) (s : State) (rs : List Resp)
    (h : run E I (init E hw ram) ms = some (s, rs)) (hu : s.deviceLocked = DEVICE_UNLOCKED)
    (hf : ∀ k, E.fault k = none)
    (first last : U32) (hv : EraseRequestValid E first last)
    (chunks : List (List Byte)) (hc : ∀ d ∈ chunks, 1 ≤ d.length ∧ d.length ≤ 254)
    (hsize : chunks.flatten.length ≤ 1265) (hne : chunks.flatten ≠ [])
    (a : U32) (ha : a.toNat % 256 = 0) (halo : first.toNat ≤ a.toNat)
    (hahi : a.toNat + (chunks.flatten.length + 255) / 256 * 256 ≤ (last.toNat / 256 + 1) * 256) :
    ∃ s', run E I s (msgEraseRange first last :: (chunks.map msgSendData ++
        [msgProgram (BitVec.ofNat 16 chunks.flatten.length) a (crc32Std chunks.flatten)]))
        = some (s', ok :: (chunks.map (fun _ => ok) ++ [ok])) ∧
      ∀ i, i < chunks.flatten.length → s'.hw.flash (a.toNat + i) = chunks.flatten.getD i 0#8 := by
  obtain ⟨buf0, -, hi0⟩ := run_buf L ms hm .start (init_inv L hw ram) h
  have hE := erase_valid_spec L s.hw hv
  have hok : (eraseAddressRange E s.hw first last true).1 = UDP_IAP_SUCCESS := hE.live hf
  have hsz := L.size
  have hsec := L.sectors
  -- after the erase
  have e1 := receive_erase (E := E) (I := I) hu first last
  rw [hok] at e1
  have i1 : BufInv E ram (resetUPDProtocol { s with hw := (eraseAddressRange E s.hw first last true).2 }) [] :=
    hi0.cleared rfl rfl hi0.decomp
  obtain ⟨s2, e2, i2, w2, u2⟩ := send_all L (I := I) chunks i1 hu hc (by simpa using hsize)
  rw [List.nil_append] at i2
  have hlen : (BitVec.ofNat 16 chunks.flatten.length).toNat = chunks.flatten.length := by
    rw [BitVec.toNat_ofNat]; omega
  have hpos : 0 < chunks.flatten.length := List.length_pos_iff.mpr hne
  have hT : Target E a chunks.flatten.length :=
    ⟨ha, Nat.le_trans hv.2.1 halo, by have := hv.2.2.2; omega⟩
  have hblank : ∀ i, i < cap chunks.flatten.length → s2.hw.flash (a.toNat + i) = 0xFF#8 := by
    intro i hlt
    rw [w2]
    exact hE.done hok _ (by omega) (by unfold cap at hlt; omega)
  have hspec := programAll_spec L s2.hw s2.ram chunks.flatten.length a hT hpos
  have hst := hspec.2.2.2 hf hblank
  have hprog : updProgram E s2 (fun i => (le16 (BitVec.ofNat 16 chunks.flatten.length) ++ le32 a ++
      le32 (crc32Std chunks.flatten)).getD i 0#8)
      = ({ s2 with hw := (programAll E s2.hw s2.ram chunks.flatten.length a).2, ramBufferPosition := 0#16 }, ok) := by
    obtain ⟨h1, h2, h3⟩ := load_program (BitVec.ofNat 16 chunks.flatten.length) a (crc32Std chunks.flatten)
    unfold updProgram
    rw [h1, h2, h3, hlen]
    dsimp only
    have hal : addressAllowedToProgram E a (BitVec.ofNat 32 chunks.flatten.length) false = true := by
      have hh := hT.high
      rw [allowed_iff L]
      refine ⟨ha, ?_, hT.low, ?_⟩
      · intro h0
        have := congrArg BitVec.toNat h0
        simp only [BitVec.toNat_ofNat] at this
        omega
      · simp only [BitVec.toNat_add, BitVec.toNat_sub, BitVec.toNat_ofNat]
        omega
    have hpp := i2.pos
    rw [hal, if_neg (by decide), if_neg (by show ¬ _ > 1265; omega), if_neg (by omega), if_neg (by omega),
      i2.data, crc_eq, if_neg (fun h => h rfl), hst]
    rfl
  refine ⟨{ s2 with hw := (programAll E s2.hw s2.ram chunks.flatten.length a).2, ramBufferPosition := 0#16 },
    ?_, fun i hlt => ?_⟩
  · have e3 : run E I s2 [msgProgram (BitVec.ofNat 16 chunks.flatten.length) a (crc32Std chunks.flatten)]
        = some ({ s2 with hw := (programAll E s2.hw s2.ram chunks.flatten.length a).2,
                          ramBufferPosition := 0#16 }, [ok]) := by
      have := receive_program (E := E) (I := I) u2 (BitVec.ofNat 16 chunks.flatten.length) a
        (crc32Std chunks.flatten)
      rw [hprog] at this
      unfold receive at this
      unfold run
      rw [this]
      rfl
    have e12 := run_append (m2 := [msgProgram (BitVec.ofNat 16 chunks.flatten.length) a
      (crc32Std chunks.flatten)]) _ e2
    unfold receive at e1
    unfold run
    rw [e1]
    dsimp only [Option.bind]
    rw [e12, e3]
    rfl
  · have hcap : chunks.flatten.length ≤ cap chunks.flatten.length := by unfold cap; omega
    show (programAll E s2.hw s2.ram chunks.flatten.length a).2.flash (a.toNat + i) = _
    rw [hspec.2.2.1 hst i (by omega)]
    have hd : bytesAt s2.ram 0 chunks.flatten.length = chunks.flatten := i2.data
    conv => rhs; rw [← hd]
    rw [bytesAt_get (by omega), Nat.zero_add]

/-- Non-vacuity: a device is unlocked; 5 bytes in two telegrams are programmed after an erase. -/
example : EraseRequestValid demoEnv 0x1100#32 0x11FF#32 ∧
    (run demoEnv demoInfo demoStart [msgUnlock demoUid, msgEraseRange 0x1100#32 0x11FF#32,
      msgSendData [1#8, 2#8, 3#8], msgSendData [4#8, 5#8],
      msgProgram 5#16 0x1100#32 (crc32Std [1#8, 2#8, 3#8, 4#8, 5#8])]).map
        (fun r => (r.2, bytesAt r.1.hw.flash 0x1100 6))
      = some ([ok, ok, ok, ok, ok], [1#8, 2#8, 3#8, 4#8, 5#8, 0#8]) := by
  refine ⟨⟨by decide, by decide, by decide, by decide⟩, by decide +kernel⟩

/-- The same with a wrong checksum: refused, and the flash is still blank. -/
example : (run demoEnv demoInfo demoStart [msgUnlock demoUid, msgSendData [1#8, 2#8, 3#8],
      msgProgram 3#16 0x1100#32 0x12345678#32]).map (fun r => (r.2, bytesAt r.1.hw.flash 0x1100 3))
      = some ([ok, ok, status 0x5e#8], [0xFF#8, 0xFF#8, 0xFF#8]) := by
  decide +kernel

end Verif.Boot
