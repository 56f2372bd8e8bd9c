import Verif.Boot.PropsProgram

/-!
# C45: only a complete application is started
-/

namespace Verif.Boot
open Verif.Iap Spec

/-- The 32-bit little-endian word at address `a`. -/
abbrev word (flash : Nat → Byte) (a : Nat) : U32 := load32 flash a

/-- The specification of "a complete application is installed": the boot descriptor (the page before the
application area) names a first and last address inside the application area, and the standard CRC-32
of the bytes of that range is the one in the descriptor. -/
def AppComplete (E : Env) (flash : Nat → Byte) : Prop :=
  let first := (word flash (appFirst E - 256)).toNat
  let last := (word flash (appFirst E - 256 + 4)).toNat
  appFirst E ≤ first ∧ first < last ∧ last < E.top ∧
    crc32Std (bytesAt flash first (last + 1 - first)) = word flash (appFirst E - 256 + 8)

theorem checkApplication_iff {E : Env} (L : Layout E) (flash : Nat → Byte) (b : AppDescriptionBlock) :
    checkApplication E flash b = true ↔
      appFirst E ≤ b.startAddress.toNat ∧ b.startAddress.toNat < b.endAddress.toNat ∧
        b.endAddress.toNat < E.top ∧
        crc32Std (bytesAt flash b.startAddress.toNat (b.endAddress.toNat + 1 - b.startAddress.toNat)) = b.crc := by
  have hl := flashLast_eq L
  have ha := appFirst_eq L
  have hs := L.size
  have hr := L.room
  unfold checkApplication
  by_cases h1 : b.startAddress < applicationFirstAddress E ∨ b.startAddress > flashLastAddress E
  · rw [if_pos h1]
    simp only [GT.gt, BitVec.lt_def, hl, ha] at h1
    constructor
    · intro h; exact absurd h (by decide)
    · rintro ⟨a1, a2, a3, -⟩; omega
  · rw [if_neg h1]
    simp only [GT.gt, BitVec.lt_def, hl, ha] at h1
    by_cases h2 : b.endAddress > flashLastAddress E
    · rw [if_pos h2]
      simp only [GT.gt, BitVec.lt_def, hl] at h2
      constructor
      · intro h; exact absurd h (by decide)
      · rintro ⟨a1, a2, a3, -⟩; omega
    · rw [if_neg h2]
      simp only [GT.gt, BitVec.lt_def, hl] at h2
      by_cases h3 : b.startAddress ≥ b.endAddress
      · rw [if_pos h3]
        simp only [GE.ge, BitVec.le_def] at h3
        constructor
        · intro h; exact absurd h (by decide)
        · rintro ⟨a1, a2, a3, -⟩; omega
      · rw [if_neg h3]
        simp only [GE.ge, BitVec.le_def] at h3
        have hn : (b.endAddress - b.startAddress + 1#32).toNat
            = b.endAddress.toNat + 1 - b.startAddress.toNat := by
          simp only [BitVec.toNat_add, BitVec.toNat_sub, BitVec.toNat_ofNat]; omega
        dsimp only
        rw [hn, crc_eq, beq_iff_eq]
        constructor
        · intro h; exact ⟨by omega, by omega, by omega, h⟩
        · rintro ⟨-, -, -, h⟩; exact h

theorem startup_some {E : Env} (L : Layout E) (flash : Nat → Byte) (a : U32) (magic button : Bool) :
    startup E flash magic button = some a ↔ magic = false ∧ button = false ∧ AppComplete E flash ∧
      a = word flash (appFirst E - 256) := by
  have hd := descAddr_eq L
  unfold startup
  cases magic with
  | true => simp
  | false =>
    cases button with
    | true => simp
    | false =>
      simp only [Bool.false_eq_true, if_false, true_and]
      have hiff := checkApplication_iff L flash (loadBlock flash (bootDescriptorBlockAddress E).toNat)
      rw [hd] at hiff ⊢
      by_cases hc : checkApplication E flash (loadBlock flash (appFirst E - 256)) = true
      · rw [if_pos hc]
        have := hiff.mp hc
        constructor
        · intro h; exact ⟨this, (Option.some.inj h).symm⟩
        · rintro ⟨-, rfl⟩; rfl
      · rw [if_neg hc]
        constructor
        · intro h; exact absurd h (by simp)
        · rintro ⟨h, -⟩; exact absurd (hiff.mpr h) hc

/-- **C45.** At power-up the application is started exactly if the bootloader was not asked to stay (magic
word, programming button) and a complete application is installed; it is started at the address the
descriptor names. For every flash content. -/
theorem C45_started_iff_complete (E : Env) (L : Layout E) (flash : Nat → Byte) (magic button : Bool) :
    (∃ a, startup E flash magic button = some a) ↔
      magic = false ∧ button = false ∧ AppComplete E flash := by
  constructor
  · rintro ⟨a, h⟩
    have := (startup_some L flash a magic button).mp h
    exact ⟨this.1, this.2.1, this.2.2.1⟩
  · rintro ⟨h1, h2, h3⟩
    exact ⟨_, (startup_some L flash _ magic button).mpr ⟨h1, h2, h3, rfl⟩⟩

/-- The start address is the one of the descriptor and lies inside the application area. -/
theorem C45_start_address (E : Env) (L : Layout E) (flash : Nat → Byte) (magic button : Bool) (a : U32)
    (h : startup E flash magic button = some a) :
    a = word flash (appFirst E - 256) ∧ appFirst E ≤ a.toNat ∧ a.toNat < E.top := by
  have h := (startup_some L flash a magic button).mp h
  obtain ⟨-, -, h3, rfl⟩ := h
  have h1 := h3.1
  have h2 := h3.2.1
  have h4 := h3.2.2.1
  exact ⟨rfl, h1, by omega⟩

/-- **C45.** An application whose installed bytes are corrupted by a burst of up to four bytes is not
started. -/
theorem C45_corrupted_application_not_started (E : Env) (L : Layout E) (flash flash' : Nat → Byte)
    (hdesc : ∀ i, i < 16 → flash' (appFirst E - 256 + i) = flash (appFirst E - 256 + i))
    (hok : AppComplete E flash)
    (hcorrupt : Crc.Spec.DifferInWindow 4
      (bytesAt flash (word flash (appFirst E - 256)).toNat
        ((word flash (appFirst E - 256 + 4)).toNat + 1 - (word flash (appFirst E - 256)).toNat))
      (bytesAt flash' (word flash (appFirst E - 256)).toNat
        ((word flash (appFirst E - 256 + 4)).toNat + 1 - (word flash (appFirst E - 256)).toNat)))
    (magic button : Bool) : startup E flash' magic button = none := by
  cases h : startup E flash' magic button with
  | none => rfl
  | some a =>
    exfalso
    obtain ⟨-, -, h3, -⟩ := (startup_some L flash' a magic button).mp h
    have w : ∀ k, k + 3 < 16 → word flash' (appFirst E - 256 + k) = word flash (appFirst E - 256 + k) := by
      intro k hk
      have e0 := hdesc k (by omega)
      have e1 := hdesc (k + 1) (by omega)
      have e2 := hdesc (k + 2) (by omega)
      have e3 := hdesc (k + 3) (by omega)
      rw [← Nat.add_assoc] at e1 e2 e3
      unfold word load32
      rw [e0, e1, e2, e3]
    unfold AppComplete at h3 hok
    have w0 := w 0 (by omega)
    rw [Nat.add_zero] at w0
    rw [w0, w 4 (by omega), w 8 (by omega)] at h3
    have heq := h3.2.2.2.trans hok.2.2.2.symm
    rw [← crc_eq, ← crc_eq] at heq
    exact Crc.C43_crc32_detects_bursts _ _ _ hcorrupt heq.symm

/-- A flash with an application of 0x20 bytes at 0x1000, descriptor at 0xF00. -/
def demoAppFlash : Nat → Byte := fun a =>
  if a < 0xF00 then 0x11#8
  else if a < 0x1000 then
    ((le32 0x1000#32 ++ le32 0x101F#32 ++ le32 (crc32Std ((List.range 32).map (fun i => BitVec.ofNat 8 i))) ++
      le32 0x1010#32)).getD (a - 0xF00) 0xFF#8
  else if a < 0x1020 then BitVec.ofNat 8 (a - 0x1000)
  else 0xFF#8

/-- Non-vacuity: this application is started; with one byte changed it is not. -/
example : startup demoEnv demoAppFlash false false = some 0x1000#32 ∧
    startup demoEnv (fun a => if a = 0x1005 then 0x77#8 else demoAppFlash a) false false = none := by
  decide +kernel

theorem demo_complete : AppComplete demoEnv demoAppFlash := by
  refine ⟨by decide +kernel, by decide +kernel, by decide +kernel, by decide +kernel⟩

/-! ## Installing the boot descriptor -/

theorem receive_updateDescriptor {E : Env} {I : Info} {s : State} (hu : s.deviceLocked = DEVICE_UNLOCKED)
    (n crc : U32) : receive E I s (msgUpdateDescriptor n crc)
      = some (updUpdateBootDescriptorBlock E s (fun i => (le32 n ++ le32 crc).getD i 0#8)) := by
  have hlo : (code2UPDCommand 0xed#8).2.1 = 8 := by decide
  have hhi : (code2UPDCommand 0xed#8).2.2 = 8 := by decide
  have hl : (le32 n ++ le32 crc).length = 8 := rfl
  rw [msgUpdateDescriptor, receive_unlocked (by omega) hu (by decide) (by omega) (by omega)]
  rfl

/-- **C45.** If the request to install a boot descriptor (of at least the 16 bytes a descriptor has) is
answered with success, then the application it describes is complete and is the one started at the
next power-up - whatever flash operations failed on the way. -/
theorem C45_installed_application_starts (E : Env) (L : Layout E) (I : Info) (s s' : State)
    (n crc : U32) (hn : 16 ≤ n.toNat) (hp : receive E I s (msgUpdateDescriptor n crc) = some (s', ok)) :
    startup E s'.hw.flash false false = some (word s.ram 0) ∧ AppComplete E s'.hw.flash ∧
      ∀ i, i < 16 → s'.hw.flash (appFirst E - 256 + i) = s.ram i := by
  have hu : s.deviceLocked = DEVICE_UNLOCKED := by
    rcases unlocked_of_reply (d := le32 n ++ le32 crc)
      (show 8 < 255 by omega) ⟨by decide, by decide, by decide⟩ hp with h | h
    · exact h
    · exact absurd rfl h.2
  rw [receive_updateDescriptor hu] at hp
  have hp := Option.some.inj hp
  have key : (∀ i, i < 16 → s'.hw.flash (appFirst E - 256 + i) = s.ram i) ∧
      checkApplication E s'.hw.flash (loadBlock s.ram 0) = true := by
    unfold updUpdateBootDescriptorBlock at hp
    obtain ⟨l1, l2⟩ := load_eraseRange n crc
    rw [l1, l2] at hp
    dsimp only at hp
    split at hp
    · exact absurd (congrArg Prod.snd hp) (by decide : status 0x5b#8 ≠ ok)
    · split at hp
      · exact absurd (congrArg Prod.snd hp) (by decide : status 0x5e#8 ≠ ok)
      · have hfin : ∀ hw result, (if (!checkApplication E hw.flash (loadBlock s.ram 0)) = true then
              (({ s with hw := hw } : State), lastError UDP_APPLICATION_NOT_STARTABLE)
            else ({ s with hw := hw }, lastError result)) = (s', ok) →
            s'.hw = hw ∧ result = UDP_IAP_SUCCESS ∧ checkApplication E hw.flash (loadBlock s.ram 0) = true := by
          intro hw result h
          cases hc : checkApplication E hw.flash (loadBlock s.ram 0) with
          | false =>
            rw [hc] at h
            exact absurd (congrArg Prod.snd h) (by decide : status 0x59#8 ≠ ok)
          | true =>
            rw [hc, if_neg (by decide)] at h
            obtain ⟨rfl, h2⟩ := Prod.mk.inj h
            simp only [lastError, status, ok, Resp.mk.injEq, List.cons.injEq, and_true, true_and] at h2
            exact ⟨rfl, h2, rfl⟩
        have hd := descAddr_eq L
        split at hp
        · rename_i hsame
          obtain ⟨h1, -, h3⟩ := hfin _ _ hp
          rw [h1]
          refine ⟨?_, h3⟩
          intro i hi
          unfold same at hsame
          rw [List.all_eq_true] at hsame
          have := hsame i (List.mem_range.mpr (by omega))
          rw [beq_iff_eq, hd] at this
          exact this
        · split at hp
          · rename_i he
            obtain ⟨-, h2⟩ := Prod.mk.inj hp
            simp only [lastError, status, ok, Resp.mk.injEq, List.cons.injEq, and_true, true_and] at h2
            exact absurd h2 he
          · split at hp
            · rename_i he
              obtain ⟨-, h2⟩ := Prod.mk.inj hp
              simp only [lastError, status, ok, Resp.mk.injEq, List.cons.injEq, and_true, true_and] at h2
              rw [he] at h2
              exact absurd h2 (by decide)
            · obtain ⟨h1, h2, h3⟩ := hfin _ _ hp
              rw [h1]
              refine ⟨?_, h3⟩
              intro i hi
              generalize (erasePageRange E s.hw (bootDescriptorBlockPage E) (bootDescriptorBlockPage E)).2
                = hw1 at h2
              rw [← hd]
              unfold executeProgramFlash at h2 ⊢
              split at h2
              · exact absurd h2 (by decide : (0x5d#8 : Byte) ≠ UDP_IAP_SUCCESS)
              · rename_i hal
                rw [if_neg hal]
                exact program_ok _ _ _ _ _ ((iapState_success _).mp h2) i (by omega)
  obtain ⟨hcopy, hchk⟩ := key
  have hw : ∀ k, k + 3 < 16 → word s'.hw.flash (appFirst E - 256 + k) = word s.ram k := by
    intro k hk
    have e0 := hcopy k (by omega)
    have e1 := hcopy (k + 1) (by omega)
    have e2 := hcopy (k + 2) (by omega)
    have e3 := hcopy (k + 3) (by omega)
    rw [← Nat.add_assoc] at e1 e2 e3
    unfold word load32
    rw [e0, e1, e2, e3]
  have hc := (checkApplication_iff L _ _).mp hchk
  have w0 := hw 0 (by omega)
  rw [Nat.add_zero] at w0
  have hcomp : AppComplete E s'.hw.flash := by
    unfold AppComplete
    rw [w0, hw 4 (by omega), hw 8 (by omega)]
    exact hc
  exact ⟨(startup_some L _ _ _ _).mpr ⟨rfl, rfl, hcomp, w0.symm⟩, hcomp, hcopy⟩

/-- Non-vacuity: a complete installation from a blank device - the application bytes, then the descriptor -
is acknowledged at every step and starts. -/
example : let app := (List.range 32).map (fun i => BitVec.ofNat 8 i)
    let desc := le32 0x1000#32 ++ le32 0x101F#32 ++ le32 (crc32Std app) ++ le32 0x1010#32
    (run demoEnv demoInfo demoStart [msgUnlock demoUid, msgSendData app,
      msgProgram 32#16 0x1000#32 (crc32Std app), msgSendData desc,
      msgUpdateDescriptor 16#32 (crc32Std desc)]).map
        (fun r => (r.2, startup demoEnv r.1.hw.flash false false))
      = some ([ok, ok, ok, ok, ok], some 0x1000#32) := by decide +kernel

/-- **C45, finding.** A descriptor request that announces fewer than 16 bytes can be acknowledged although
the descriptor in flash is not the received one: here the announced length is 0, the answer is
"success", and at the next power-up no application is started. -/
theorem C45_short_descriptor_acknowledged :
    let desc := le32 0x1000#32 ++ le32 0x1001#32 ++ le32 (crc32Std [0xFF#8, 0xFF#8]) ++ le32 0x1010#32
    (run demoEnv demoInfo demoStart [msgUnlock demoUid, msgSendData desc,
      msgUpdateDescriptor 0#32 (crc32Std [])]).map
        (fun r => (r.2, startup demoEnv r.1.hw.flash false false))
      = some ([ok, ok, ok], none) := by decide +kernel

/-- **C45, finding.** If the size of the bootloader image is 1 modulo 256, the application area does not
start at a page boundary (`std::align` refuses to move the pointer by 255 bytes), so that no boot
descriptor can ever be installed: the check for page alignment refuses its address. -/
theorem C45_unlucky_image_size (E : Env) (L : Layout E) (h : E.imageEnd % 256 = 1) (I : Info) (s s' : State)
    (n crc : U32) (hn : 16 ≤ n.toNat)
    (hdiff : ∃ i, i < 16 ∧ s.hw.flash (appFirst E - 256 + i) ≠ s.ram i)
    (r : Resp) (hp : receive E I s (msgUpdateDescriptor n crc) = some (s', r)) : r ≠ ok := by
  rintro rfl
  have hal : addressAllowedToProgram E (bootDescriptorBlockAddress E) (BitVec.ofNat 32 256) true = false := by
    cases hc : addressAllowedToProgram E (bootDescriptorBlockAddress E) (BitVec.ofNat 32 256) true with
    | false => rfl
    | true =>
      have := ((allowedDesc_iff L _ _).mp hc).1
      rw [descAddr_eq L] at this
      unfold appFirst at this
      rw [if_pos h] at this
      omega
  have hu : s.deviceLocked = DEVICE_UNLOCKED := by
    rcases unlocked_of_reply (d := le32 n ++ le32 crc)
      (show 8 < 255 by omega) ⟨by decide, by decide, by decide⟩ hp with h | h
    · exact h
    · exact absurd rfl h.2
  rw [receive_updateDescriptor hu] at hp
  have hp := Option.some.inj hp
  unfold updUpdateBootDescriptorBlock at hp
  obtain ⟨l1, l2⟩ := load_eraseRange n crc
  rw [l1, l2] at hp
  dsimp only at hp
  split at hp
  · exact absurd (congrArg Prod.snd hp) (by decide : status 0x5b#8 ≠ ok)
  · split at hp
    · exact absurd (congrArg Prod.snd hp) (by decide : status 0x5e#8 ≠ ok)
    · split at hp
      · rename_i hsame
        obtain ⟨i, hi, hne⟩ := hdiff
        unfold same at hsame
        rw [List.all_eq_true] at hsame
        have := hsame i (List.mem_range.mpr (by omega))
        rw [beq_iff_eq, descAddr_eq L] at this
        exact hne this
      · split at hp
        · rename_i he
          obtain ⟨-, h2⟩ := Prod.mk.inj hp
          simp only [lastError, status, ok, Resp.mk.injEq, List.cons.injEq, and_true, true_and] at h2
          exact he h2
        · unfold executeProgramFlash at hp
          rw [hal] at hp
          exact absurd (congrArg Prod.snd hp) (by decide : status 0x5d#8 ≠ ok)

end Verif.Boot
