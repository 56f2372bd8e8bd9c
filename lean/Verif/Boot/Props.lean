import Verif.Boot.BufLemmas

/-!
# C38-C42: the update commands of the bootloader

All theorems hold for every device (`Env`): any image size and flash size admitted by `Layout`, any
unique id, any pattern of failing ROM flash calls.
-/

namespace Verif.Boot
open Verif.Iap Spec

/-- A concrete device for the examples: 16 KiB flash, bootloader image of 0xF00 bytes, no faults. -/
def demoEnv : Env :=
  { top := 0x4000, fault := fun _ => none, garbage := fun _ _ => 0#8, imageEnd := 0xF00
    uid := fun i => BitVec.ofNat 8 (i + 0x10), directStore := false, decompressorBuilt := true }
def demoInfo : Info := ⟨0#16, 0#16, 1#8, 20#8⟩
def demoHw : Hw := { flash := fun a => if a < 0x1000 then 0x11#8 else 0xFF#8, calls := 0 }
def demoUid : List Byte := bytesAt demoEnv.uid 0 12
def demoStart : State := init demoEnv demoHw (fun _ => 0#8)

theorem demoLayout : Layout demoEnv := ⟨by decide, by decide, by decide, by decide⟩

/-! ## C38 -/

theorem same_iff (a b : Nat → Byte) (n : Nat) : same a b n = true ↔ bytesAt a 0 n = bytesAt b 0 n := by
  unfold same bytesAt
  rw [List.all_eq_true, List.map_inj_left]
  constructor
  · intro h i hi; have := h i hi; rw [beq_iff_eq] at this; simpa using this
  · intro h i hi; rw [beq_iff_eq]; simpa using h i hi

theorem reversed_bytes (id : List Byte) (h : id.length = 12) :
    bytesAt (reverseGroups (fun i => id.getD i 0#8)) 0 12 = groupsReversed id := by
  match id, h with
  | [_, _, _, _, _, _, _, _, _, _, _, _], _ => rfl

/-- One step: what an unlock message does. -/
theorem unlock_step {E : Env} {s : State} {d : List Byte} (hd : d.length = 12) :
    ((d = bytesAt E.uid 0 12 ∨ groupsReversed d = bytesAt E.uid 0 12) ∧
      ((updUnlockDevice E s (fun i => d.getD i 0#8) 12).1.deviceLocked = DEVICE_UNLOCKED ∧
          (updUnlockDevice E s (fun i => d.getD i 0#8) 12).2 = ok ∨ ∃ k, E.fault k ≠ none)) ∨
    ((updUnlockDevice E s (fun i => d.getD i 0#8) 12).1 = { s with hw := (readUidStatus E.toEnv s.hw).2 } ∧
      ∃ e, (updUnlockDevice E s (fun i => d.getD i 0#8) 12).2 = status e) := by
  have hg := bytesAt_getD d
  rw [hd] at hg
  unfold updUnlockDevice
  rw [if_neg (by decide)]
  dsimp only
  by_cases hf : iapResult2UDPState (readUidStatus E.toEnv s.hw).1 = UDP_IAP_SUCCESS
  · rw [if_neg (fun h => h hf)]
    by_cases hs : (!same E.uid (fun i => d.getD i 0#8) 12 &&
        !same E.uid (reverseGroups (fun i => d.getD i 0#8)) 12) = true
    · rw [if_pos hs]
      exact .inr ⟨rfl, _, rfl⟩
    · rw [if_neg hs]
      left
      refine ⟨?_, .inl ⟨rfl, rfl⟩⟩
      simp only [Bool.and_eq_true, Bool.not_eq_true', not_and, Bool.not_eq_false] at hs
      cases h1 : same E.uid (fun i => d.getD i 0#8) 12 with
      | true => left; have := (same_iff _ _ _).mp h1; rw [hg] at this; exact this.symm
      | false =>
        right
        have := (same_iff _ _ _).mp (hs h1)
        rw [reversed_bytes d hd] at this
        exact this.symm
  · rw [if_pos hf]
    exact .inr ⟨rfl, _, rfl⟩

/-- What a locked device can do with a message that does not unlock it. -/
theorem locked_step {E : Env} {I : Info} {s : State} (hs : s.deviceLocked ≠ DEVICE_UNLOCKED)
    {m : List Byte} (hm : Telegram m) (hu : ¬ UnlocksWith (bytesAt E.uid 0 12) m) :
    ∃ s' r, receive E I s m = some (s', r) ∧ s'.hw.flash = s.hw.flash ∧ s'.ram = s.ram ∧
      s'.ramBufferPosition = s.ramBufferPosition ∧ s'.decomp = s.decomp ∧
      s'.deviceLocked = s.deviceLocked ∧
      ((∃ e, r = status e) ∨ r = ⟨0xbd#8, bytesAt E.uid 0 12⟩ ∨ r = updAppVersionRequest E s) := by
  have hsome : ∃ r, receive E I s m = some r := by
    unfold receive handle
    dsimp only
    split
    · exact ⟨_, rfl⟩
    · split
      · exact ⟨_, rfl⟩
      · split
        · exact ⟨_, rfl⟩
        · split
          · exact ⟨_, rfl⟩
          · rename_i h
            generalize (code2UPDCommand (m.getD 0 0#8)).1 = c at h ⊢
            by_cases c1 : c = 0xbf#8
            · subst c1; exact ⟨_, rfl⟩
            · by_cases c2 : c = 0xbe#8
              · subst c2; exact ⟨_, rfl⟩
              · by_cases c3 : c = 0xbc#8
                · subst c3; exact ⟨_, rfl⟩
                · exact absurd ⟨hs, c1, c2, c3⟩ h
  obtain ⟨⟨s', r⟩, h⟩ := hsome
  refine ⟨s', r, h, ?_⟩
  cases m with
  | nil =>
    obtain ⟨rfl, rfl⟩ := Prod.mk.inj (receive_nil h)
    exact ⟨rfl, rfl, rfl, rfl, rfl, .inl ⟨_, rfl⟩⟩
  | cons c d =>
    have hlen : d.length < 255 := by unfold Telegram at hm; simp only [List.length_cons] at hm; omega
    rcases receive_cons hlen h with ⟨e, he, -, -⟩ | ⟨hc, hlo, hhi, hu', hd⟩
    · obtain ⟨rfl, rfl⟩ := Prod.mk.inj he
      exact ⟨rfl, rfl, rfl, rfl, rfl, .inl ⟨_, rfl⟩⟩
    · rcases hu' with h' | h' | h' | h'
      · exact absurd h' hs
      · subst h'
        have h12 : d.length = 12 := by
          have a : (code2UPDCommand 0xbf#8).2.1 = 12 := by decide
          have b : (code2UPDCommand 0xbf#8).2.2 = 12 := by decide
          omega
        have hd' : some (updUnlockDevice E s (fun i => d.getD i 0#8) d.length) = some (s', r) := hd
        rw [h12] at hd'
        have hd' := Option.some.inj hd'
        rcases unlock_step (E := E) (s := s) h12 with h | h
        · exact absurd ⟨rfl, by rw [List.length_cons, h12], h.1⟩ hu
        · rw [hd'] at h
          dsimp only at h
          obtain ⟨rfl, h2⟩ := h
          exact ⟨readUid_flash _ _, rfl, rfl, rfl, rfl, .inl h2⟩
      · subst h'
        have hd' : some (updRequestUID E s) = some (s', r) := hd
        have hd' := Option.some.inj hd'
        unfold updRequestUID at hd'
        dsimp only at hd'
        split at hd'
        · obtain ⟨rfl, rfl⟩ := Prod.mk.inj hd'
          exact ⟨readUid_flash _ _, rfl, rfl, rfl, rfl, .inl ⟨_, rfl⟩⟩
        · obtain ⟨rfl, rfl⟩ := Prod.mk.inj hd'
          exact ⟨readUid_flash _ _, rfl, rfl, rfl, rfl, .inr (.inl rfl)⟩
      · subst h'
        have hd' : some (s, updAppVersionRequest E s) = some (s', r) := hd
        obtain ⟨rfl, rfl⟩ := Prod.mk.inj (Option.some.inj hd')
        exact ⟨rfl, rfl, rfl, rfl, rfl, .inr (.inr rfl)⟩

theorem locked_run {E : Env} {I : Info} (ms : List (List Byte)) : ∀ (s : State),
    s.deviceLocked ≠ DEVICE_UNLOCKED →
    (∀ m ∈ ms, Telegram m ∧ ¬ UnlocksWith (bytesAt E.uid 0 12) m) →
    ∃ s' rs, run E I s ms = some (s', rs) ∧ s'.hw.flash = s.hw.flash ∧ s'.ram = s.ram ∧
      s'.ramBufferPosition = s.ramBufferPosition ∧ s'.decomp = s.decomp ∧
      s'.deviceLocked = s.deviceLocked ∧
      ∀ r ∈ rs, (∃ e, r = status e) ∨ r = ⟨0xbd#8, bytesAt E.uid 0 12⟩ ∨ r = updAppVersionRequest E s := by
  induction ms with
  | nil => intro s _ _; exact ⟨s, [], rfl, rfl, rfl, rfl, rfl, rfl, by simp⟩
  | cons m ms ih =>
    intro s hs hm
    obtain ⟨s1, r1, e1, f1, f2, f3, f4, f5, f6⟩ :=
      locked_step (I := I) hs (hm m List.mem_cons_self).1 (hm m List.mem_cons_self).2
    obtain ⟨s2, rs, e2, g1, g2, g3, g4, g5, g6⟩ :=
      ih s1 (by rw [f5]; exact hs) (fun x hx => hm x (List.mem_cons_of_mem _ hx))
    refine ⟨s2, r1 :: rs, ?_, by rw [g1, f1], by rw [g2, f2], by rw [g3, f3], by rw [g4, f4],
      by rw [g5, f5], ?_⟩
    · unfold run
      unfold receive at e1
      rw [e1]
      simp [e2]
    · intro r hr
      rcases List.mem_cons.mp hr with rfl | hr
      · exact f6
      · have := g6 r hr
        unfold updAppVersionRequest at this ⊢
        rwa [f1] at this

/-- **C38.** From power-up, whatever sequence of telegrams arrives, as long as none of them is the unlock
command with the id of this device: the flash and the download buffer keep their contents, the
decompressor is not fed, and the only answers are status codes, the id and the application version. -/
theorem C38_locked_device_is_inert (E : Env) (I : Info) (hw : Hw) (ram : Nat → Byte)
    (ms : List (List Byte)) (hm : ∀ m ∈ ms, Telegram m ∧ ¬ UnlocksWith (bytesAt E.uid 0 12) m) :
    ∃ s' rs, run E I (init E hw ram) ms = some (s', rs) ∧ s'.hw.flash = hw.flash ∧ s'.ram = ram ∧
      s'.ramBufferPosition = 0#16 ∧ s'.decomp = (init E hw ram).decomp ∧
      ∀ r ∈ rs, (∃ e, r = status e) ∨ r = ⟨0xbd#8, bytesAt E.uid 0 12⟩ ∨
        r = updAppVersionRequest E (init E hw ram) := by
  obtain ⟨s', rs, e1, e2, e3, e4, e5, -, e6⟩ := locked_run (E := E) (I := I) ms (init E hw ram) (by
    show DEVICE_LOCKED ≠ DEVICE_UNLOCKED; decide) hm
  exact ⟨s', rs, e1, e2, e3, e4, e5, e6⟩

/-- Non-vacuity: an erase, a data and a programming request and an unlock attempt with a wrong id. -/
example : ∀ m ∈ [msgEraseAll, msgSendData [1#8, 2#8], msgProgram 2#16 0x1100#32 0#32,
      msgUnlock (List.replicate 12 0#8), [0xbe#8]],
    Telegram m ∧ ¬ UnlocksWith demoUid m := by
  decide

/-- **C38.** The unlock command with the id of the device does unlock it (unless reading the id fails). -/
theorem C38_right_id_unlocks (E : Env) (I : Info) (s : State) (m : List Byte)
    (h : UnlocksWith (bytesAt E.uid 0 12) m) (hf : ∀ k, E.fault k = none) :
    ∃ s', receive E I s m = some (s', ok) ∧ s'.deviceLocked = DEVICE_UNLOCKED ∧
      s'.hw.flash = s.hw.flash := by
  obtain ⟨hc, hl', hid⟩ := h
  obtain ⟨id, rfl⟩ : ∃ id, m = msgUnlock id := by
    cases m with
    | nil => exact absurd hc (by simp)
    | cons c d => exact ⟨d, by rw [List.head?_cons] at hc; rw [Option.some.inj hc]; rfl⟩
  have hl : id.length = 12 := by
    unfold msgUnlock at hl'; rw [List.length_cons] at hl'; omega
  have hid : id = bytesAt E.uid 0 12 ∨ groupsReversed id = bytesAt E.uid 0 12 := hid
  have hg := bytesAt_getD id
  rw [hl] at hg
  have hr : receive E I s (msgUnlock id) = some (updUnlockDevice E s (fun i => id.getD i 0#8) id.length) := by
    unfold receive handle msgUnlock
    have hlen : (BitVec.ofNat 32 (0xbf#8 :: id).length).toNat = 13 := by
      rw [List.length_cons, hl]; rfl
    rw [hlen]
    dsimp only
    have hdata : (fun i => (0xbf#8 :: id).getD (i + 1) 0#8) = (fun i => id.getD i 0#8) := by
      funext i; rw [List.getD_cons_succ]
    rw [List.getD_cons_zero, hdata, if_neg (by decide), if_neg (by decide), if_neg (by decide),
      if_neg (fun h => h.2.1 (by decide)), hl]
    rfl
  rw [hr, hl]
  have hread : iapResult2UDPState (readUidStatus E.toEnv s.hw).1 = UDP_IAP_SUCCESS := by
    unfold readUidStatus
    rw [iapState_success]
    exact (call_noFault E.toEnv hf s.hw 0 0 s.hw.flash).1
  have hsame : (!same E.uid (fun i => id.getD i 0#8) 12 &&
        !same E.uid (reverseGroups (fun i => id.getD i 0#8)) 12) = false := by
    rcases hid with h | h
    · have : same E.uid (fun i => id.getD i 0#8) 12 = true := by rw [same_iff, hg, h]
      rw [this]; rfl
    · have : same E.uid (reverseGroups (fun i => id.getD i 0#8)) 12 = true := by
        rw [same_iff, reversed_bytes id hl, h]
      rw [this]; simp
  unfold updUnlockDevice
  rw [if_neg (by decide)]
  dsimp only
  rw [if_neg (fun h => h hread), hsame]
  exact ⟨_, rfl, rfl, readUid_flash _ _⟩

example : UnlocksWith demoUid (msgUnlock demoUid) ∧
    UnlocksWith demoUid (msgUnlock (groupsReversed demoUid)) := by decide

/-- **C38, remark.** The id that unlocks the device is given away by the locked device itself on
request, so the lock protects against accidents, not against an attacker. -/
theorem C38_id_is_disclosed (E : Env) (I : Info) (s : State) (hf : ∀ k, E.fault k = none) :
    ∃ s', receive E I s [0xbe#8] = some (s', ⟨0xbd#8, bytesAt E.uid 0 12⟩) ∧
      UnlocksWith (bytesAt E.uid 0 12) (msgUnlock (bytesAt E.uid 0 12)) := by
  have hr : receive E I s [0xbe#8] = some (updRequestUID E s) := by
    unfold receive handle
    dsimp only
    rw [if_neg (by decide), if_neg (by decide), if_neg (by decide), if_neg (fun h => h.2.2.1 (by decide))]
    rfl
  have hread : iapResult2UDPState (readUidStatus E.toEnv s.hw).1 = UDP_IAP_SUCCESS := by
    unfold readUidStatus
    rw [iapState_success]
    exact (call_noFault E.toEnv hf s.hw 0 0 s.hw.flash).1
  rw [hr]
  unfold updRequestUID
  dsimp only
  rw [if_neg (fun h => h hread)]
  refine ⟨_, rfl, rfl, ?_, .inl rfl⟩
  unfold msgUnlock
  rw [List.length_cons, bytesAt_length]

example : ∀ k, demoEnv.fault k = none := fun _ => rfl

/-! ## C39 -/

/-- **C39.** No sequence of update telegrams, on a locked or unlocked device and whatever flash
operations fail, changes a byte of the bootloader image. -/
theorem C39_bootloader_never_overwritten (E : Env) (L : Layout E) (I : Info) (ms : List (List Byte)) :
    ∀ (s s' : State) (rs : List Resp), run E I s ms = some (s', rs) →
      ∀ a, a < E.imageEnd → s'.hw.flash a = s.hw.flash a := by
  induction ms with
  | nil =>
    intro s s' rs h a _
    obtain ⟨rfl, -⟩ := Prod.mk.inj (Option.some.inj h)
    rfl
  | cons m ms ih =>
    intro s s' rs h a ha
    obtain ⟨r1, r2, e1, e2, e3⟩ := run_cons h
    obtain ⟨rfl, rfl⟩ := Prod.mk.inj e3
    rw [ih r1.1 r2.1 r2.2 e2 a ha]
    exact handle_keeps L I s _ _ r1 e1 a ha

/-- Non-vacuity: an unlocked device that erases its whole application area. -/
example : ∃ s' rs, run demoEnv demoInfo demoStart [msgUnlock demoUid, msgEraseAll] = some (s', rs) ∧
    rs = [ok, ok] := ⟨_, _, rfl, by decide +kernel⟩

/-! ## C41 -/

/-- **C41.** After any sequence of telegrams the number of buffered bytes is at most the size of the
buffer and no byte of RAM behind the buffer was changed. -/
theorem C41_buffer_never_overflows (E : Env) (L : Layout E) (I : Info) (hw : Hw) (ram : Nat → Byte)
    (ms : List (List Byte)) (hm : ∀ m ∈ ms, Telegram m) (s' : State) (rs : List Resp)
    (h : run E I (init E hw ram) ms = some (s', rs)) :
    s'.ramBufferPosition.toNat ≤ 1265 ∧ ∀ i, 1265 ≤ i → s'.ram i = ram i := by
  obtain ⟨buf, -, hi⟩ := run_buf L ms hm .start (init_inv L hw ram) h
  exact ⟨by rw [hi.pos]; exact hi.fits, hi.beyond⟩

/-- **C41.** In every reachable state of an unlocked device a data telegram is accepted and appended
exactly if it fits; otherwise the answer is "buffer overflow" and nothing changes. -/
theorem C41_data_appended_iff_it_fits (E : Env) (L : Layout E) (I : Info) (hw : Hw) (ram : Nat → Byte)
    (ms : List (List Byte)) (hm : ∀ m ∈ ms, Telegram m) (s : State) (rs : List Resp)
    (h : run E I (init E hw ram) ms = some (s, rs)) (hu : s.deviceLocked = DEVICE_UNLOCKED)
    (d : List Byte) (hd : 1 ≤ d.length) (hd' : d.length ≤ 254) :
    ∃ buf, Buffered (ms.zip rs) buf ∧ bytesAt s.ram 0 s.ramBufferPosition.toNat = buf ∧
      ((buf.length + d.length ≤ 1265 →
        ∃ s', receive E I s (msgSendData d) = some (s', ok) ∧
          bytesAt s'.ram 0 s'.ramBufferPosition.toNat = buf ++ d ∧ s'.hw = s.hw) ∧
       (1265 < buf.length + d.length → receive E I s (msgSendData d) = some (s, status 0x5b#8))) := by
  obtain ⟨buf, hb, hi⟩ := run_buf L ms hm .start (init_inv L hw ram) h
  refine ⟨buf, by simpa using hb, by rw [hi.pos]; exact hi.data, ?_⟩
  have hlo : (code2UPDCommand 0xef#8).2.1 = 1 := by decide
  have hhi : (code2UPDCommand 0xef#8).2.2 = 254 := by decide
  have hr : receive E I s (msgSendData d) = some (updSendData s (fun i => d.getD i 0#8) d.length) := by
    rw [msgSendData, receive_unlocked (by omega) hu (by decide) (by omega) (by omega)]
    rfl
  have hbs : bufferSize = 1265 := rfl
  constructor
  · intro hfit
    have h2 : updSendData s (fun i => d.getD i 0#8) d.length
        = ({ s with ram := Decomp.blit s.ram s.ramBufferPosition.toNat (fun i => d.getD i 0#8) 0 d.length
                    ramBufferPosition := s.ramBufferPosition + BitVec.ofNat 16 d.length }, ok) := by
      unfold updSendData
      rw [if_neg (by rw [hi.pos]; omega)]
      rfl
    rw [h2] at hr
    refine ⟨_, hr, ?_, rfl⟩
    have hm2 : Telegram (msgSendData d) := by
      unfold Telegram msgSendData; rw [List.length_cons]; omega
    obtain ⟨buf', hb', hi'⟩ := bufInv_step L hi hm2 hr
    have : buf' = buf ++ d := by
      rcases hb' with h | h
      · rw [h]; unfold bufStep msgSendData; dsimp only; rw [if_pos rfl, if_pos rfl]
      · exact absurd (show some 0xef#8 = some 0xee#8 from h.1) (by decide)
    rw [hi'.pos, hi'.data, this]
  · intro hfit
    rw [hr]
    unfold updSendData
    rw [if_pos (by rw [hi.pos]; omega)]
    rfl

/-- Non-vacuity: a device is unlocked and filled with telegrams of 254 bytes; the fifth one no longer
fits. -/
example : (run demoEnv demoInfo demoStart (msgUnlock demoUid ::
      List.replicate 5 (msgSendData (List.replicate 254 0xAA#8)))).map (·.2)
    = some [ok, ok, ok, ok, ok, status 0x5b#8] := by decide +kernel

/-! ## C42 -/

theorem receive_erase {E : Env} {I : Info} {s : State} (hu : s.deviceLocked = DEVICE_UNLOCKED)
    (a b : U32) : receive E I s (msgEraseRange a b)
      = some (resetUPDProtocol { s with hw := (eraseAddressRange E s.hw a b true).2 },
          status (eraseAddressRange E s.hw a b true).1) := by
  have hlo : (code2UPDCommand 0xe9#8).2.1 = 8 := by decide
  have hhi : (code2UPDCommand 0xe9#8).2.2 = 8 := by decide
  have hl : (le32 a ++ le32 b).length = 8 := rfl
  rw [msgEraseRange, receive_unlocked (by omega) hu (by decide) (by omega) (by omega)]
  have h := load_eraseRange a b
  show some (updEraseAddressRange E s _) = _
  unfold updEraseAddressRange
  rw [h.1, h.2]
  rfl

/-- The requests the protocol calls valid: page aligned, and inside the application area, which starts at
the second page boundary behind the bootloader image. -/
def EraseRequestValid (E : Env) (a b : U32) : Prop :=
  a.toNat % 256 = 0 ∧ appFirst E ≤ a.toNat ∧ a.toNat ≤ b.toNat ∧ b.toNat < E.top

theorem erase_allowed_iff {E : Env} (L : Layout E) (a b : U32) (hab : a.toNat ≤ b.toNat) :
    addressAllowedToProgram E a (b - a + 1#32) false = true ↔ EraseRequestValid E a b := by
  have hs := L.size
  rw [allowed_iff L]
  have e1 : a + (b - a + 1#32) - 1#32 = b := by
    apply BitVec.eq_of_toNat_eq
    simp only [BitVec.toNat_add, BitVec.toNat_sub, BitVec.toNat_ofNat]
    omega
  rw [e1]
  unfold EraseRequestValid
  constructor
  · rintro ⟨h1, -, h3, h4⟩; exact ⟨h1, h3, hab, h4⟩
  · rintro ⟨h1, h3, -, h4⟩
    refine ⟨h1, ?_, h3, h4⟩
    intro h
    have := congrArg BitVec.toNat h
    simp only [BitVec.toNat_add, BitVec.toNat_sub, BitVec.toNat_ofNat] at this
    omega

theorem erase_valid_spec {E : Env} (L : Layout E) (hw : Hw) {a b : U32} (h : EraseRequestValid E a b) :
    Erased E hw a.toNat ((b.toNat / 256 + 1) * 256) (eraseAddressRange E hw a b true) := by
  obtain ⟨h1, h2, h3, h4⟩ := h
  have := appFirst_ge E
  exact eraseRange_spec L hw a b true h1 h3 h4 (by omega) (fun _ => h2)

/-- **C42.** A successful erase request for the addresses `a .. b` leaves every byte of every page that
intersects the range at 0xFF and every other byte of the flash as it was. -/
theorem C42_erase_success_exact (E : Env) (L : Layout E) (I : Info) (s s' : State)
    (hu : s.deviceLocked = DEVICE_UNLOCKED) (a b : U32) (hab : a.toNat ≤ b.toNat)
    (h : receive E I s (msgEraseRange a b) = some (s', ok)) :
    ∀ x, s'.hw.flash x = if a.toNat / 256 ≤ x / 256 ∧ x / 256 ≤ b.toNat / 256 then 0xFF#8
      else s.hw.flash x := by
  rw [receive_erase hu] at h
  obtain ⟨rfl, h2⟩ := Prod.mk.inj (Option.some.inj h)
  have hst : (eraseAddressRange E s.hw a b true).1 = UDP_IAP_SUCCESS := by
    simp only [status, ok, Resp.mk.injEq, List.cons.injEq, and_true, true_and] at h2
    exact h2
  have hv : EraseRequestValid E a b := by
    rw [← erase_allowed_iff L a b hab]
    cases hc : addressAllowedToProgram E a (b - a + 1#32) false with
    | true => rfl
    | false =>
      unfold eraseAddressRange at hst
      rw [hc] at hst
      rw [if_pos (by decide)] at hst
      exact absurd hst (by decide : (0x51#8 : Byte) ≠ UDP_IAP_SUCCESS)
  have hE := erase_valid_spec L s.hw hv
  intro x
  have hal := hv.1
  show (eraseAddressRange E s.hw a b true).2.flash x = _
  by_cases hx : a.toNat / 256 ≤ x / 256 ∧ x / 256 ≤ b.toNat / 256
  · rw [if_pos hx]; exact hE.done hst x (by omega) (by omega)
  · rw [if_neg hx]; exact hE.frame x (by omega)

/-- **C42.** Whatever the answer (also if the flash hardware fails half way), a request with `a ≤ b` never
touches a page outside the range. -/
theorem C42_erase_confined (E : Env) (L : Layout E) (I : Info) (s s' : State) (r : Resp)
    (hu : s.deviceLocked = DEVICE_UNLOCKED) (a b : U32) (hab : a.toNat ≤ b.toNat)
    (h : receive E I s (msgEraseRange a b) = some (s', r)) :
    ∀ x, ¬ (a.toNat / 256 ≤ x / 256 ∧ x / 256 ≤ b.toNat / 256) → s'.hw.flash x = s.hw.flash x := by
  rw [receive_erase hu] at h
  obtain ⟨rfl, -⟩ := Prod.mk.inj (Option.some.inj h)
  intro x hx
  show (eraseAddressRange E s.hw a b true).2.flash x = _
  by_cases hv : EraseRequestValid E a b
  · have hal := hv.1
    exact (erase_valid_spec L s.hw hv).frame x (by omega)
  · have : addressAllowedToProgram E a (b - a + 1#32) false = false := by
      cases hc : addressAllowedToProgram E a (b - a + 1#32) false with
      | false => rfl
      | true => exact absurd ((erase_allowed_iff L a b hab).mp hc) hv
    unfold eraseAddressRange
    rw [this]
    rfl

/-- **C42.** On working hardware exactly the valid requests succeed; the others are refused with "address
range not allowed to erase" and change nothing. -/
theorem C42_erase_succeeds_iff_valid (E : Env) (L : Layout E) (I : Info) (s : State)
    (hu : s.deviceLocked = DEVICE_UNLOCKED) (hf : ∀ k, E.fault k = none) (a b : U32)
    (hab : a.toNat ≤ b.toNat) :
    ∃ s' r, receive E I s (msgEraseRange a b) = some (s', r) ∧
      (EraseRequestValid E a b → r = ok) ∧
      (¬ EraseRequestValid E a b → r = status 0x51#8 ∧ s'.hw = s.hw) := by
  refine ⟨_, _, receive_erase hu a b, ?_, ?_⟩
  · intro hv
    rw [(erase_valid_spec L s.hw hv).live hf]
    rfl
  · intro hv
    have : addressAllowedToProgram E a (b - a + 1#32) false = false := by
      cases hc : addressAllowedToProgram E a (b - a + 1#32) false with
      | false => rfl
      | true => exact absurd ((erase_allowed_iff L a b hab).mp hc) hv
    unfold eraseAddressRange
    rw [this]
    exact ⟨rfl, rfl⟩

/-- Non-vacuity: a range that starts inside a sector, contains whole sectors and ends inside another. -/
example : EraseRequestValid demoEnv 0x1100#32 0x3234#32 ∧
    (run demoEnv demoInfo demoStart [msgUnlock demoUid, msgEraseRange 0x1100#32 0x3234#32]).map (·.2)
      = some [ok, ok] := by
  refine ⟨⟨by decide, by decide, by decide, by decide⟩, by decide +kernel⟩

/-- **C42.** The command that erases everything leaves every byte from the first page behind the
bootloader image to the end of the flash at 0xFF, if it reports success; on working hardware it does. -/
theorem C42_erase_all (E : Env) (L : Layout E) (I : Info) (s : State)
    (hu : s.deviceLocked = DEVICE_UNLOCKED) :
    ∃ s' r, receive E I s msgEraseAll = some (s', r) ∧
      (∀ x, (x / 256 ≤ (E.imageEnd - 1) / 256 ∨ E.top ≤ x) → s'.hw.flash x = s.hw.flash x) ∧
      (r = ok → ∀ x, (E.imageEnd - 1) / 256 < x / 256 → x < E.top → s'.hw.flash x = 0xFF#8) ∧
      ((∀ k, E.fault k = none) → r = ok) := by
  have hsz := L.size
  have hroom := L.room
  have hsec := L.sectors
  have hr : receive E I s msgEraseAll = some (resetUPDProtocol { s with hw := (eraseFullFlash E s.hw).2 },
      status (eraseFullFlash E s.hw).1) := by
    rw [msgEraseAll, receive_unlocked (by decide) hu (by decide) (by decide) (by decide)]
    rfl
  refine ⟨_, _, hr, ?_⟩
  have hpage : pageOfAddress (bootLoaderLastAddress E) = (E.imageEnd - 1) / 256 := by
    rw [pageOfAddress_small _ (by rw [bootLast_eq L]; omega), bootLast_eq L]
  have haddr : (addressOfPage (pageOfAddress (bootLoaderLastAddress E) + 1)).toNat
      = ((E.imageEnd - 1) / 256 + 1) * 256 := by
    rw [hpage]
    unfold addressOfPage
    simp only [BitVec.toNat_ofNat]
    omega
  have hE := eraseRange_spec L s.hw (addressOfPage (pageOfAddress (bootLoaderLastAddress E) + 1))
    (flashLastAddress E) false (by rw [haddr]; omega) (by rw [haddr, flashLast_eq L]; omega)
    (by rw [flashLast_eq L]; omega) (by rw [haddr]; omega) (fun h => absurd h (by decide))
  rw [haddr, flashLast_eq L] at hE
  refine ⟨fun x hx => hE.frame x (by omega), fun hok x hx hx' => ?_, fun hf => ?_⟩
  · have hst : (eraseFullFlash E s.hw).1 = UDP_IAP_SUCCESS := by
      simp only [status, ok, Resp.mk.injEq, List.cons.injEq, and_true, true_and] at hok
      exact hok
    exact hE.done hst x (by omega) (by omega)
  · have := hE.live hf
    show status (eraseFullFlash E s.hw).1 = ok
    unfold eraseFullFlash
    rw [this]
    rfl

example : (run demoEnv demoInfo demoStart [msgUnlock demoUid, msgEraseAll]).map (·.2) = some [ok, ok] := by
  decide +kernel

/-- **C42, finding.** The request is not checked for `a ≤ b`: a request whose end lies before its start
is answered with success although pages on both sides of the range are erased. Here 0x2100 .. 0x1000
erases the page at 0x2200 (behind the start). -/
theorem C42_inverted_range_erases (s : State) (hu : s.deviceLocked = DEVICE_UNLOCKED) :
    ∃ s', receive demoEnv demoInfo s (msgEraseRange 0x2100#32 0x1000#32) = some (s', ok) ∧
      s'.hw.flash 0x2200 = 0xFF#8 := by
  have hp : ∀ hw x y, pageAllowedToErase demoEnv x = true → pageAllowedToErase demoEnv y = true →
      x ≤ y → y < 0x40 → (erasePageRange demoEnv hw x y).1 = UDP_IAP_SUCCESS ∧
        Erased demoEnv hw (x * 256) ((y + 1) * 256) (erasePageRange demoEnv hw x y) := by
    intro hw x y hx hy hxy hy'
    have := erasePages_spec demoLayout hw x y hxy ((pageAllowed_iff demoLayout x).mp hx).1 hy'
    exact ⟨this.live (fun _ => rfl), this⟩
  have h1 := hp s.hw 0x21 0x2F (by decide) (by decide) (by decide) (by decide)
  have h2 := hp (erasePageRange demoEnv s.hw 0x21 0x2F).2 0x10 0x10 (by decide) (by decide) (by decide)
    (by decide)
  have he : eraseAddressRange demoEnv s.hw 0x2100#32 0x1000#32 true
      = erasePageRange demoEnv (erasePageRange demoEnv s.hw 0x21 0x2F).2 0x10 0x10 := by
    unfold eraseAddressRange
    dsimp only
    rw [if_neg (by decide), if_neg (by decide), if_pos (by decide),
      show pageOfAddress 0x2100#32 = 0x21 by decide, show sectorOfAddress 0x2100#32 = 2 by decide,
      show sub32 (pageOfAddress (BitVec.ofNat 32 (2 + 1) * 0x1000#32)) 1 = 0x2F by decide,
      if_neg (fun h => h h1.1)]
    unfold eraseTail
    dsimp only
    rw [if_pos (by decide),
      show (BitVec.ofNat 32 (sectorOfAddress 0x1000#32) * 0x1000#32 / 0x100#32).toNat = 0x10 by decide,
      show pageOfAddress 0x1000#32 = 0x10 by decide, if_neg (fun h => h h2.1)]
    unfold eraseWholeSectors
    rw [if_neg (by decide)]
  refine ⟨resetUPDProtocol { s with hw := (eraseAddressRange demoEnv s.hw 0x2100#32 0x1000#32 true).2 },
    ?_, ?_⟩
  · rw [receive_erase hu, he, h2.1]; rfl
  · show ((eraseAddressRange demoEnv s.hw 0x2100#32 0x1000#32 true).2).flash 0x2200 = 0xFF#8
    rw [he, h2.2.frame 0x2200 (by decide)]
    exact h1.2.done h1.1 0x2200 (by decide) (by decide)

end Verif.Boot
