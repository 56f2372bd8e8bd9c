import Verif.Boot.PropsStart

/-!
# C126: what the bootloader tells about itself, and why it refuses a request
-/

namespace Verif.Boot
open Verif.Iap Spec

/-! ## Specification -/

/-- The requests of the update protocol with the number of data bytes they carry (least and greatest). -/
def requests : List (Byte × Nat × Nat) :=
  [ (0xbf#8, 12, 12)    -- unlock with the unique id
  , (0xbe#8, 0, 0)      -- unique id
  , (0xbc#8, 0, 0)      -- version of the application
  , (0xef#8, 1, 254)    -- data for the download buffer
  , (0xee#8, 10, 10)    -- program the download buffer
  , (0xed#8, 8, 8)      -- install the boot descriptor
  , (0xec#8, 1, 254)    -- data for the decompressor
  , (0xeb#8, 4, 4)      -- program the decompressed page
  , (0xea#8, 0, 0)      -- erase everything
  , (0xe9#8, 8, 8)      -- erase a range
  , (0xe8#8, 3, 3)      -- not implemented
  , (0xe7#8, 8, 8)      -- dump the flash (not implemented)
  , (0xdf#8, 0, 0)      -- statistic
  , (0xba#8, 0, 0)      -- boot descriptor
  , (0xb8#8, 2, 2) ]    -- identity of the bootloader

/-- The answers of the protocol with the number of data bytes they carry. A bootloader that is sent one of them does
not know what to do with it. -/
def answers : List (Byte × Nat × Nat) :=
  [(0xde#8, 4, 4), (0xdc#8, 1, 1), (0xbd#8, 12, 12), (0xbb#8, 12, 12), (0xb9#8, 12, 12), (0xb7#8, 10, 10), (0xb6#8, 2, 2)]

/-- The requests that are answered by a locked device. -/
def openRequests : List Byte := [0xbf#8, 0xbe#8, 0xbc#8]

/-- The text "[SB KNX BL ]". -/
def bootloaderName : List Byte := "[SB KNX BL ]".toList.map fun c => BitVec.ofNat 8 c.toNat

/-- The text of 12 bytes that names the version of the application: the descriptor (the page before the application
area) has its address behind the first three words. It has to lie in the application area, and more than 14 bytes
before the end of the flash. -/
def versionText (E : Env) (flash : Nat → Byte) : List Byte :=
  let v := (word flash (appFirst E - 256 + 12)).toNat
  if appFirst E ≤ v ∧ v + 14 < E.top then bytesAt flash v 12 else bootloaderName

/-! ## Refusals -/

theorem code_requests : ∀ t ∈ requests ++ answers, code2UPDCommand t.1 = t ∧ t.1 ≠ 0x00#8 := by decide +kernel

theorem code_unknown (c : Byte) (h : c ∉ (requests ++ answers).map (·.1)) (h1 : c ≠ 0x01#8) :
    (code2UPDCommand c).1 = 0x00#8 := by
  have : ∀ c : Byte, c ∉ (requests ++ answers).map (·.1) → c ≠ 0x01#8 → (code2UPDCommand c).1 = 0x00#8 := by
    decide +kernel
  exact this c h h1

theorem receive_eq (E : Env) (I : Info) (s : State) (c : Byte) (d : List Byte) (hlen : d.length < 255) :
    receive E I s (c :: d) =
      if (code2UPDCommand c).1 = 0x00#8 then some (s, status 0x01#8)
      else if d.length < (code2UPDCommand c).2.1 ∨ d.length > (code2UPDCommand c).2.2 then some (s, status 0x55#8)
      else if s.deviceLocked ≠ DEVICE_UNLOCKED ∧ (code2UPDCommand c).1 ≠ 0xbf#8 ∧ (code2UPDCommand c).1 ≠ 0xbe#8 ∧
          (code2UPDCommand c).1 ≠ 0xbc#8 then some (s, status 0x58#8)
      else dispatch E I s (code2UPDCommand c).1 (fun i => d.getD i 0#8) d.length := by
  have hl : (BitVec.ofNat 32 (c :: d).length).toNat = d.length + 1 := by
    simp only [List.length_cons, BitVec.toNat_ofNat]; omega
  have hdata : (fun i => (c :: d).getD (i + 1) 0#8) = (fun i => d.getD i 0#8) := by
    funext i; rw [List.getD_cons_succ]
  unfold receive handle
  rw [hl, if_neg (by omega)]
  dsimp only
  rw [List.getD_cons_zero, hdata, Nat.add_sub_cancel]
  rfl

/-- **C126 (refusals).** A message that is no request of the protocol, has the wrong number of data bytes, or comes to a
locked device without being one of the three open requests, is answered with the status that says so and changes
nothing; in this order. -/
theorem C126_refused (E : Env) (I : Info) (s : State) (c : Byte) (d : List Byte) (hlen : d.length < 255) :
    receive E I s [] = some (s, status 0x54#8) ∧
    (c ∉ (requests ++ answers).map (·.1) → c ≠ 0x01#8 → receive E I s (c :: d) = some (s, status 0x01#8)) ∧
    (∀ lo hi, (c, lo, hi) ∈ requests ++ answers →
      ((d.length < lo ∨ hi < d.length) → receive E I s (c :: d) = some (s, status 0x55#8)) ∧
      (lo ≤ d.length ∧ d.length ≤ hi → s.deviceLocked ≠ DEVICE_UNLOCKED → c ∉ openRequests →
        receive E I s (c :: d) = some (s, status 0x58#8)) ∧
      (lo ≤ d.length ∧ d.length ≤ hi → s.deviceLocked = DEVICE_UNLOCKED → (c, lo, hi) ∈ answers →
        receive E I s (c :: d) = some (s, status 0x5f#8)) ∧
      (lo ≤ d.length ∧ d.length ≤ hi → s.deviceLocked = DEVICE_UNLOCKED → (c = 0xe7#8 ∨ c = 0xe8#8) →
        receive E I s (c :: d) = some (s, status 0x02#8))) := by
  refine ⟨?_, ?_, ?_⟩
  · unfold receive handle
    rw [if_pos (by decide)]
    rfl
  · intro h h1
    rw [receive_eq E I s c d hlen, if_pos (code_unknown c h h1)]
  · intro lo hi hmem
    obtain ⟨hc, h0⟩ := code_requests _ hmem
    rw [receive_eq E I s c d hlen, hc, if_neg h0]
    refine ⟨?_, ?_, ?_, ?_⟩
    · intro h
      rw [if_pos h]
    · intro h hl ho
      have h' : ¬ (d.length < lo ∨ d.length > hi) := by omega
      rw [if_neg h', if_pos]
      unfold openRequests at ho
      simp only [List.mem_cons, List.not_mem_nil, or_false, not_or] at ho
      exact ⟨hl, ho⟩
    · intro h hl ha
      have h' : ¬ (d.length < lo ∨ d.length > hi) := by omega
      rw [if_neg h', if_neg (fun x => x.1 hl)]
      have : ∀ t ∈ answers, ∀ x ∈ [0xbf#8, 0xbe#8, 0xbc#8, 0xef#8, 0xee#8, 0xec#8, 0xeb#8, 0xea#8, 0xe9#8, 0xe7#8,
          0xdf#8, 0xed#8, 0xba#8, 0xb8#8, 0xe8#8], t.1 ≠ x := by decide
      have hx := this _ ha
      unfold dispatch
      simp only at hx ⊢
      rw [if_neg (hx _ (by simp)), if_neg (hx _ (by simp)), if_neg (hx _ (by simp)), if_neg (hx _ (by simp)),
        if_neg (hx _ (by simp)), if_neg (hx _ (by simp)), if_neg (hx _ (by simp)), if_neg (hx _ (by simp)),
        if_neg (hx _ (by simp)), if_neg (hx _ (by simp)), if_neg (hx _ (by simp)), if_neg (hx _ (by simp)),
        if_neg (hx _ (by simp)), if_neg (hx _ (by simp)), if_neg (hx _ (by simp))]
      rfl
    · intro h hl hc'
      have h' : ¬ (d.length < lo ∨ d.length > hi) := by omega
      rw [if_neg h', if_neg (fun x => x.1 hl)]
      rcases hc' with rfl | rfl <;> rfl

/-! ## Reports -/

/-- **C126 (version of the application).** Every device, locked or not, answers with the version text the descriptor
points to, or with the name of the bootloader if the descriptor points outside the application area. -/
theorem C126_version (E : Env) (L : Layout E) (I : Info) (s : State) :
    receive E I s [0xbc#8] = some (s, ⟨0xbb#8, versionText E s.hw.flash⟩) := by
  have ha := appFirst_eq L
  have hl := flashLast_eq L
  have hd := descAddr_eq L
  have hs := L.size
  have hr := L.room
  have hle := appFirst_le E
  rw [receive_eq E I s _ _ (by decide), show code2UPDCommand 0xbc#8 = (0xbc#8, 0, 0) by decide,
    if_neg (by decide), if_neg (by decide), if_neg (fun h => h.2.2.2 rfl)]
  show some (s, updAppVersionRequest E s) = _
  congr 2
  unfold updAppVersionRequest versionText
  simp only
  have hd' : (applicationFirstAddress E - 0x100#32).toNat = appFirst E - 256 := hd
  rw [hd']
  congr 1
  unfold getAppVersion
  have hsub : (flashLastAddress E - 13#32).toNat = E.top - 14 := by
    rw [BitVec.toNat_sub, hl]
    simp
    omega
  by_cases h : appFirst E ≤ (word s.hw.flash (appFirst E - 256 + 12)).toNat ∧
      (word s.hw.flash (appFirst E - 256 + 12)).toNat + 14 < E.top
  · rw [if_pos h, if_pos]
    · rfl
    · show _ ≥ _ ∧ _ < _
      rw [ge_iff_le, BitVec.le_def, BitVec.lt_def, ha, hsub]
      exact ⟨h.1, by have := h.2; show (word s.hw.flash (appFirst E - 256 + 12)).toNat < _; omega⟩
  · rw [if_neg h, if_neg]
    · exact (by decide +kernel : blIdString = bootloaderName)
    · intro hh
      apply h
      obtain ⟨h1, h2⟩ := hh
      rw [ge_iff_le, BitVec.le_def, ha] at h1
      rw [BitVec.lt_def, hsub] at h2
      exact ⟨h1, by have h3 : (word s.hw.flash (appFirst E - 256 + 12)).toNat < E.top - 14 := h2
                    omega⟩

/-- **C126 (identity).** An unlocked device tells an updater of version 1 or later its version 1.20, its features, the
version of the library and the first address of the application area; an older updater is told that version 1.0 is
needed. -/
theorem C126_identity (E : Env) (L : Layout E) (I : Info) (s : State) (hu : s.deviceLocked = DEVICE_UNLOCKED)
    (major minor : Byte) :
    receive E I s [0xb8#8, major, minor] = some (s,
      if 1 ≤ major.toNat then
        ⟨0xb7#8, [1#8, 20#8, 0x00#8, 0x01#8, I.libMajor, I.libMinor] ++ le32 (BitVec.ofNat 32 (appFirst E))⟩
      else ⟨0xb6#8, [1#8, 0#8]⟩) := by
  rw [receive_unlocked (by simp) hu (by decide) (by show (code2UPDCommand 0xb8#8).2.1 ≤ 2; decide)
    (by show 2 ≤ (code2UPDCommand 0xb8#8).2.2; decide)]
  show some (s, updRequestBootloaderIdentity E _ _ _) = _
  congr 2
  unfold updRequestBootloaderIdentity
  have ha : applicationFirstAddress E = BitVec.ofNat 32 (appFirst E) := by
    rw [← appFirst_eq L, BitVec.ofNat_toNat, BitVec.setWidth_eq]
  have h0 : ([major, minor].getD 0 0#8) = major := rfl
  simp only [h0]
  by_cases h : 1 ≤ major.toNat
  · rw [if_pos (by omega), if_pos h, ha]
    rfl
  · rw [if_neg (by omega), if_neg h]

/-- **C126 (the address told is the first one that can be programmed).** Programming below it is refused because of the
address. Programming a page at it is not (here a bootloader with an empty download buffer misses the data), unless the
image of the bootloader ends one byte behind a page, when the address is no address of a page. -/
theorem C126_first_address (E : Env) (L : Layout E) (I : Info) (s : State) (hu : s.deviceLocked = DEVICE_UNLOCKED)
    (n : Word) (a crc : U32) :
    (a.toNat < appFirst E → receive E I s (msgProgram n a crc) = some (s, status 0x5d#8)) ∧
    (a.toNat = appFirst E → 1 ≤ n.toNat → n.toNat ≤ 256 → s.ramBufferPosition = 0#16 →
      receive E I s (msgProgram n a crc) =
        some (s, status (if E.imageEnd % 256 = 1 then 0x5d#8 else 0x50#8))) := by
  obtain ⟨l1, l2, l3⟩ := load_program n a crc
  have hs := L.size
  have hr := L.room
  have hle := appFirst_le E
  have hn := n.isLt
  rw [receive_program hu]
  unfold updProgram
  rw [l1, l2, l3]
  simp only
  constructor
  · intro h
    have hf : addressAllowedToProgram E a (BitVec.ofNat 32 n.toNat) false = false := by
      rw [Bool.eq_false_iff]
      intro hc
      have := ((allowed_iff L _ _).mp hc).2.2.1
      omega
    rw [hf]
    rfl
  · intro h h1 h2 hpos
    by_cases hi : E.imageEnd % 256 = 1
    · have hf : addressAllowedToProgram E a (BitVec.ofNat 32 n.toNat) false = false := by
        rw [Bool.eq_false_iff]
        intro hc
        have := ((allowed_iff L _ _).mp hc).1
        rw [h] at this
        unfold appFirst at this
        rw [if_pos hi] at this
        omega
      rw [hf, if_pos hi]
      rfl
    · have hf : addressAllowedToProgram E a (BitVec.ofNat 32 n.toNat) false = true := by
        rw [allowed_iff L]
        refine ⟨by rw [h]; exact appFirst_aligned hi, ?_, by omega, ?_⟩
        · intro hz
          have := congrArg BitVec.toNat hz
          rw [BitVec.toNat_ofNat] at this
          have h0 : (0#32 : U32).toNat = 0 := rfl
          omega
        · have hnn : (BitVec.ofNat 32 n.toNat).toNat = n.toNat := by rw [BitVec.toNat_ofNat]; omega
          rw [BitVec.toNat_sub, BitVec.toNat_add, hnn, h]
          have h0 : (1#32 : U32).toNat = 1 := rfl
          have := appFirst_aligned hi
          have := L.sectors
          omega
      rw [hf, if_neg hi]
      have hp : s.ramBufferPosition.toNat = 0 := by rw [hpos]; rfl
      have hb : ¬ n.toNat > bufferSize := by show ¬ n.toNat > 1265; omega
      have e : ({ s with ramBufferPosition := 0#16 } : State) = s := by rw [← hpos]
      rw [if_neg (by decide), if_neg hb, hp, if_neg (by omega), if_pos (by omega), e]
      rfl

/-- **C126 (statistic).** The numbers of lost connections and of repeated acknowledges. -/
theorem C126_statistic (E : Env) (I : Info) (s : State) (hu : s.deviceLocked = DEVICE_UNLOCKED) :
    receive E I s [0xdf#8] = some (s, ⟨0xde#8, le16 I.disconnectCount ++ le16 I.repeatedTAckCount⟩) := by
  rw [receive_unlocked (by simp) hu (by decide) (by decide) (by decide)]
  rfl

theorem receive_descriptor (E : Env) (L : Layout E) (I : Info) (s : State) (hu : s.deviceLocked = DEVICE_UNLOCKED)
    (hst : E.directStore = false) :
    receive E I s [0xba#8] = some (s, ⟨0xb9#8, bytesAt s.hw.flash (appFirst E - 256) 12⟩) := by
  rw [receive_unlocked (by simp) hu (by decide) (by decide) (by decide)]
  show some (udpRequestBootDescriptionBlock E s) = _
  unfold udpRequestBootDescriptionBlock
  simp only [hst, Bool.and_false, Bool.false_eq_true, if_false]
  rw [descAddr_eq L]

theorem bytes_of_load (m : Nat → Byte) (a : Nat) : [m a, m (a + 1), m (a + 2), m (a + 3)] = le32 (load32 m a) := by
  unfold le32 load32
  have h (w x y z : Byte) : [w, x, y, z] = [(z ++ y ++ x ++ w).extractLsb' 0 8, (z ++ y ++ x ++ w).extractLsb' 8 8,
      (z ++ y ++ x ++ w).extractLsb' 16 8, (z ++ y ++ x ++ w).extractLsb' 24 8] := by
    congr 1
    · apply BitVec.eq_of_getLsbD_eq
      intro i hi
      simp only [BitVec.getLsbD_append, BitVec.getLsbD_extractLsb']
      simp [hi]
    · congr 1
      · apply BitVec.eq_of_getLsbD_eq
        intro i hi
        simp only [BitVec.getLsbD_append, BitVec.getLsbD_extractLsb']
        simp [hi, show ¬ 8 + i < 8 by omega, show 8 + i - 8 = i by omega]
      · congr 1
        · apply BitVec.eq_of_getLsbD_eq
          intro i hi
          simp only [BitVec.getLsbD_append, BitVec.getLsbD_extractLsb']
          simp [hi, show ¬ 16 + i < 8 by omega, show ¬ 16 + i - 8 < 8 by omega, show 16 + i - 8 - 8 = i by omega]
        · congr 1
          apply BitVec.eq_of_getLsbD_eq
          intro i hi
          simp only [BitVec.getLsbD_append, BitVec.getLsbD_extractLsb']
          simp [hi, show ¬ 24 + i < 8 by omega, show ¬ 24 + i - 8 < 8 by omega, show ¬ 24 + i - 8 - 8 < 8 by omega,
            show 24 + i - 8 - 8 - 8 = i by omega]
  exact h _ _ _ _

theorem twelve (m : Nat → Byte) (a : Nat) :
    bytesAt m a 12 = le32 (load32 m a) ++ le32 (load32 m (a + 4)) ++ le32 (load32 m (a + 8)) := by
  rw [← bytes_of_load, ← bytes_of_load, ← bytes_of_load]
  unfold bytesAt
  rw [show List.range 12 = [0, 1, 2, 3, 4, 5, 6, 7, 8, 9, 10, 11] from rfl]
  simp [Nat.add_assoc]

/-- **C126 (boot descriptor).** The descriptor told is the one in the flash, and asking for it changes nothing. If an
application is started at the next power-up, the descriptor told names its first and last address and the standard
CRC-32 of its bytes. -/
theorem C126_descriptor (E : Env) (L : Layout E) (I : Info) (s : State) (hu : s.deviceLocked = DEVICE_UNLOCKED)
    (hst : E.directStore = false) :
    ∃ first last crc : U32,
      receive E I s [0xba#8] = some (s, ⟨0xb9#8, le32 first ++ le32 last ++ le32 crc⟩) ∧
      bytesAt s.hw.flash (appFirst E - 256) 12 = le32 first ++ le32 last ++ le32 crc ∧
      ∀ a, startup E s.hw.flash false false = some a →
        first = a ∧ appFirst E ≤ a.toNat ∧ a.toNat < last.toNat ∧ last.toNat < E.top ∧
        crc = crc32Std (bytesAt s.hw.flash a.toNat (last.toNat + 1 - a.toNat)) := by
  refine ⟨word s.hw.flash (appFirst E - 256), word s.hw.flash (appFirst E - 256 + 4),
    word s.hw.flash (appFirst E - 256 + 8), ?_, ?_, ?_⟩
  · rw [receive_descriptor E L I s hu hst, twelve]
  · exact twelve _ _
  · intro a h
    obtain ⟨-, -, ⟨h1, h2, h3, h4⟩, rfl⟩ := (startup_some L s.hw.flash a false false).mp h
    exact ⟨rfl, h1, h2, h3, h4.symm⟩

/-! ## Non-vacuity -/

/-- A complete update, then all reports. -/
example :
    let app : List Byte := [0x11#8, 0x22#8, 0x33#8, 0x44#8, 0x41#8, 0x70#8, 0x70#8, 0x20#8, 0x31#8, 0x2E#8, 0x30#8,
      0x30#8, 0x20#8, 0x20#8, 0x20#8, 0x20#8]
    let desc := le32 0x1000#32 ++ le32 0x100f#32 ++ le32 (crc32Std app) ++ le32 0x1004#32
    (run demoEnv demoInfo demoStart [[0xbc#8], [0xb8#8, 1#8, 0#8], msgUnlock demoUid, msgEraseAll, msgSendData app,
      msgProgram 16#16 0x1000#32 (crc32Std app), msgSendData desc, msgUpdateDescriptor 16#32 (crc32Std desc),
      [0xbc#8], [0xba#8], [0xb8#8, 1#8, 0#8], [0xb8#8, 0#8, 99#8], [0x77#8], [0xdc#8, 0#8]]).map (·.2) =
      some [⟨0xbb#8, bootloaderName⟩, status 0x58#8, ok, ok, ok, ok, ok, ok,
        ⟨0xbb#8, [0x41#8, 0x70#8, 0x70#8, 0x20#8, 0x31#8, 0x2E#8, 0x30#8, 0x30#8, 0x20#8, 0x20#8, 0x20#8, 0x20#8]⟩,
        ⟨0xb9#8, le32 0x1000#32 ++ le32 0x100f#32 ++ le32 (crc32Std app)⟩,
        ⟨0xb7#8, [1#8, 20#8, 0#8, 1#8, 1#8, 20#8, 0x00#8, 0x10#8, 0#8, 0#8]⟩, ⟨0xb6#8, [1#8, 0#8]⟩,
        status 0x01#8, status 0x5f#8] := by decide +kernel

end Verif.Boot
