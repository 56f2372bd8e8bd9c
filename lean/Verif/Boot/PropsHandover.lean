import Verif.Boot.PropsStart
import Verif.Boot.Handover

/-!
# C87: handover between bootloader and application
-/

namespace Verif.Boot
open Verif.Iap Blu Spec

/-! ## Specification -/

/-- The RAM of the chip: 8 KiB from 0x10000000 on. An initial stack pointer is the address behind the
stack. -/
def PointsIntoRam (sp : U32) : Prop := 0x10000000 ≤ sp.toNat ∧ sp.toNat ≤ 0x10002000

/-- If a complete application is installed, its first word (the initial stack pointer) points into the RAM. -/
def SoundStack (E : Env) (flash : Nat → Byte) : Prop :=
  AppComplete E flash → PointsIntoRam (word flash (word flash (appFirst E - 256)).toNat)

/-- The programs (bootloader and applications) are linked to RAM addresses from 0x100000C0 on
(firmware_updater/README.md): they leave the 192 bytes before alone; and whatever they write to the flash,
a complete application has a sound stack pointer. -/
def Behaves (E : Env) (c : Chip) : ChipEv → Prop
  | .powerOn _ _ => True
  | .restart _ _ => True
  | .works flash ram => SoundStack E flash ∧ ∀ a, a < 0x100000C0 → ram a = c.ram a

/-- A history in which every program behaves. -/
def AllBehave (E : Env) : Chip → List ChipEv → Prop
  | _, [] => True
  | c, e :: es => Behaves E c e ∧ AllBehave E (chipStep E c e) es

/-! ## Helper lemmas -/

theorem store32_other (m : Nat → Byte) (a : Nat) (v : U32) (i : Nat) (h : i < a ∨ a + 4 ≤ i) :
    store32 m a v i = m i := by
  unfold store32
  rw [if_neg (by omega), if_neg (by omega), if_neg (by omega), if_neg (by omega)]

theorem store32_at (m : Nat → Byte) (f : Nat → Byte) (a b k : Nat) (h : k < 4) :
    store32 m a (load32 f b) (a + k) = f (b + k) := by
  have hb : ∀ (p q r s : Byte), (p ++ q ++ r ++ s : U32).extractLsb' 0 8 = s ∧
      (p ++ q ++ r ++ s : U32).extractLsb' 8 8 = r ∧ (p ++ q ++ r ++ s : U32).extractLsb' 16 8 = q ∧
      (p ++ q ++ r ++ s : U32).extractLsb' 24 8 = p := by
    intro p q r s
    refine ⟨?_, ?_, ?_, ?_⟩ <;>
    · apply BitVec.eq_of_getLsbD_eq
      intro i hi
      have h4 : ∀ n, i < 8 → i + n - n = i := by omega
      simp only [BitVec.getLsbD_extractLsb', BitVec.getLsbD_append, hi, decide_true, Bool.true_and]
      repeat (first | rw [if_pos (by omega)] | rw [if_neg (by omega)])
      try congr 1
      try omega
  have := hb (f (b + 3)) (f (b + 2)) (f (b + 1)) (f b)
  unfold store32 load32
  rcases k with _ | _ | _ | _ | k
  · rw [if_pos (Nat.add_zero a)]; exact this.1
  · rw [if_neg (by omega), if_pos rfl]; exact this.2.1
  · rw [if_neg (by omega), if_neg (by omega), if_pos rfl]; exact this.2.2.1
  · rw [if_neg (by omega), if_neg (by omega), if_neg (by omega), if_pos rfl]; exact this.2.2.2
  · omega

theorem load32_store32_same (m : Nat → Byte) (a : Nat) (v : U32) : load32 (store32 m a v) a = v := by
  unfold load32 store32
  rw [if_neg (by omega), if_neg (by omega), if_neg (by omega), if_pos rfl, if_neg (by omega),
    if_neg (by omega), if_pos rfl, if_neg (by omega), if_pos rfl, if_pos rfl]
  apply BitVec.eq_of_getLsbD_eq
  intro i hi
  simp only [BitVec.getLsbD_append, BitVec.getLsbD_extractLsb']
  by_cases h1 : i < 8
  · simp [h1]
  · by_cases h2 : i < 16
    · simp [h1, show i - 8 < 8 by omega, show 8 + (i - 8) = i by omega]
    · by_cases h3 : i < 24
      · simp [h1, show ¬ i - 8 < 8 by omega, show i - 8 - 8 < 8 by omega,
          show 16 + (i - 8 - 8) = i by omega]
      · simp [h1, show ¬ i - 8 < 8 by omega, show ¬ i - 8 - 8 < 8 by omega,
          show i - 8 - 8 - 8 < 8 by omega, show 24 + (i - 8 - 8 - 8) = i by omega]

theorem copyVectors_eq (flash : Nat → Byte) (start n i : Nat) (ram : Nat → Byte) (a : Nat) :
    copyVectors flash start n i ram a =
      if reservedRam + 4 * i ≤ a ∧ a < reservedRam + 4 * (i + n) then flash (start + (a - reservedRam))
      else ram a := by
  induction n generalizing i ram with
  | zero => rw [if_neg (by omega)]; rfl
  | succ n ih =>
    rw [copyVectors, ih]
    by_cases h1 : reservedRam + 4 * (i + 1) ≤ a ∧ a < reservedRam + 4 * (i + 1 + n)
    · rw [if_pos h1, if_pos (by omega)]
    · rw [if_neg h1]
      by_cases h2 : reservedRam + 4 * i ≤ a ∧ a < reservedRam + 4 * (i + (n + 1))
      · rw [if_pos h2]
        obtain ⟨k, hk⟩ : ∃ k, a = reservedRam + 4 * i + k := ⟨a - (reservedRam + 4 * i), by omega⟩
        have hk4 : k < 4 := by omega
        subst hk
        rw [store32_at _ _ _ _ _ hk4]
        exact congrArg flash (by omega)
      · rw [if_neg h2]
        exact store32_other _ _ _ _ (by omega)

theorem load32_congr {m n : Nat → Byte} {a b : Nat} (h : ∀ k, k < 4 → m (a + k) = n (b + k)) :
    load32 m a = load32 n b := by
  have h0 := h 0 (by omega)
  rw [Nat.add_zero, Nat.add_zero] at h0
  unfold load32
  rw [h 3 (by omega), h 2 (by omega), h 1 (by omega), h0]

/-- The effect of `bootStart`, case by case. -/
theorem bootStart_stays {E : Env} (L : Layout E) (c : Chip) (button : Bool)
    (h : load32 c.ram magicAddress = magicWord ∨ button = true ∨ ¬ AppComplete E c.flash) :
    bootStart E c button = { c with ram := store32 c.ram magicAddress 0#32 } := by
  unfold bootStart
  by_cases hm : load32 c.ram magicAddress = magicWord
  · rw [if_pos hm]
  · rw [if_neg hm]
    cases button with
    | true => simp
    | false =>
      rcases h with h | h | h
      · exact absurd h hm
      · exact absurd h (by decide)
      · have hc : ¬ checkApplication E c.flash (loadBlock c.flash (appFirst E - 256)) = true :=
          fun hc => h ((checkApplication_iff L _ _).mp hc)
        simp only [Bool.false_eq_true, if_false, descAddr_eq L]
        rw [if_neg hc]

theorem bootStart_starts {E : Env} (L : Layout E) (c : Chip)
    (hm : load32 c.ram magicAddress ≠ magicWord) (ha : AppComplete E c.flash) :
    bootStart E c false = jumpToApplication { c with ram := store32 c.ram magicAddress 0#32 }
      (word c.flash (appFirst E - 256)) := by
  unfold bootStart
  rw [if_neg hm]
  have hc : checkApplication E c.flash (loadBlock c.flash (appFirst E - 256)) = true :=
    (checkApplication_iff L _ _).mpr ha
  simp only [Bool.false_eq_true, if_false, descAddr_eq L]
  rw [if_pos hc]
  rfl

theorem jump_ram (c : Chip) (start : U32) (a : Nat) :
    (jumpToApplication c start).ram a =
      if 0x10000000 ≤ a ∧ a < 0x100000C0 then c.flash (start.toNat + (a - 0x10000000)) else c.ram a := by
  show copyVectors c.flash start.toNat (192 / 4) 0 c.ram a = _
  rw [copyVectors_eq]
  rfl

/-- The reserved word after a start: 0 if the bootloader stays, else the application's first word. -/
theorem bootStart_word {E : Env} (L : Layout E) (c : Chip) (button : Bool)
    (hs : SoundStack E c.flash) : load32 (bootStart E c button).ram magicAddress ≠ magicWord := by
  by_cases h : load32 c.ram magicAddress = magicWord ∨ button = true ∨ ¬ AppComplete E c.flash
  · rw [bootStart_stays L c button h]
    show load32 (store32 c.ram magicAddress 0#32) magicAddress ≠ _
    rw [load32_store32_same]
    decide
  · have h1 : ¬ load32 c.ram magicAddress = magicWord := fun e => h (Or.inl e)
    have h2 : button = false := by
      cases button with
      | true => exact absurd (Or.inr (Or.inl rfl)) h
      | false => rfl
    have h3 : AppComplete E c.flash := Classical.byContradiction fun e => h (Or.inr (Or.inr e))
    subst h2
    rw [bootStart_starts L c h1 h3]
    have : load32 (jumpToApplication { c with ram := store32 c.ram magicAddress 0#32 }
        (word c.flash (appFirst E - 256))).ram magicAddress =
        load32 c.flash (word c.flash (appFirst E - 256)).toNat := by
      apply load32_congr
      intro k hk
      rw [jump_ram, if_pos ⟨by unfold magicAddress; omega, by unfold magicAddress; omega⟩]
      exact congrArg c.flash (by unfold magicAddress; omega)
    rw [this]
    have := hs h3
    intro e
    have he : word c.flash (word c.flash (appFirst E - 256)).toNat = magicWord := e
    rw [he] at this
    exact absurd this (by unfold PointsIntoRam magicWord; decide)

theorem chip_inv {E : Env} (L : Layout E) (c : Chip) (evs : List ChipEv)
    (hb : AllBehave E c evs) (hs : SoundStack E c.flash)
    (hm : load32 c.ram magicAddress ≠ magicWord) :
    SoundStack E (chipLife E c evs).flash ∧ load32 (chipLife E c evs).ram magicAddress ≠ magicWord := by
  induction evs generalizing c with
  | nil => exact ⟨hs, hm⟩
  | cons e es ih =>
    have hflash : ∀ (c : Chip) b, (bootStart E c b).flash = c.flash := by
      intro c b
      unfold bootStart
      by_cases h1 : load32 c.ram magicAddress = magicWord
      · rw [if_pos h1]
      · rw [if_neg h1]
        cases b
        · simp only [Bool.false_eq_true, if_false]
          by_cases h2 : checkApplication E c.flash (loadBlock c.flash (bootDescriptorBlockAddress E).toNat) = true
          · rw [if_pos h2]; rfl
          · rw [if_neg h2]
        · rfl
    show SoundStack E (chipLife E (chipStep E c e) es).flash ∧ _
    refine ih (chipStep E c e) hb.2 ?_ ?_
    · cases e with
      | powerOn r b => show SoundStack E (bootStart E _ b).flash; rw [hflash]; exact hs
      | restart i b =>
        show SoundStack E (bootStart E _ b).flash
        rw [hflash]
        cases i <;> exact hs
      | works f r => exact hb.1.1
    · cases e with
      | powerOn r b => exact bootStart_word L _ b hs
      | restart i b => exact bootStart_word L _ b (by cases i <;> exact hs)
      | works f r =>
        show load32 r magicAddress ≠ magicWord
        rw [load32_congr (m := r) (n := c.ram) (a := magicAddress) (b := magicAddress)
          (fun k hk => hb.1.2 _ (by unfold magicAddress; omega))]
        exact hm

/-! ## The property -/

/-- **C87.** How an application is entered. After any reset that starts the application, the processor
executes it from its reset vector (second word) with the stack pointer it names (first word), takes its
interrupt vectors from the RAM, the RAM there holds the first 192 bytes of the application, and the rest
of the RAM and the flash are as before. -/
theorem C87_entry (E : Env) (L : Layout E) (c : Chip) (button : Bool) (sp pc : U32)
    (h : (bootStart E (hwReset c) button).running = .program sp pc) :
    let c' := bootStart E (hwReset c) button
    let start := (word c.flash (appFirst E - 256)).toNat
    AppComplete E c.flash ∧ sp = word c.flash start ∧ pc = word c.flash (start + 4) ∧ c'.remap = 1 ∧
      (∀ i, i < 192 → c'.ram (0x10000000 + i) = c.flash (start + i)) ∧
      (∀ a, a < 0x10000000 ∨ 0x100000C0 ≤ a → c'.ram a = c.ram a) ∧ c'.flash = c.flash := by
  by_cases hst : load32 (hwReset c).ram magicAddress = magicWord ∨ button = true ∨
      ¬ AppComplete E (hwReset c).flash
  · rw [bootStart_stays L _ button hst] at h
    exact absurd h (by intro h; cases h)
  · have h1 : ¬ load32 (hwReset c).ram magicAddress = magicWord := fun e => hst (Or.inl e)
    have h2 : button = false := by
      cases button with
      | true => exact absurd (Or.inr (Or.inl rfl)) hst
      | false => rfl
    have h3 : AppComplete E (hwReset c).flash :=
      Classical.byContradiction fun e => hst (Or.inr (Or.inr e))
    subst h2
    have hb := bootStart_starts L (hwReset c) h1 h3
    intro c' start
    have hc' : c' = jumpToApplication { hwReset c with ram := store32 (hwReset c).ram magicAddress 0#32 }
      (word c.flash (appFirst E - 256)) := hb
    rw [hb] at h
    have hr : Running.program (word c.flash start) (word c.flash (start + 4)) = Running.program sp pc := h
    injection hr with hsp hpc
    refine ⟨h3, hsp.symm, hpc.symm, by rw [hc']; rfl, ?_, ?_, by rw [hc']; rfl⟩
    · intro i hi
      rw [hc', jump_ram, if_pos ⟨by omega, by omega⟩]
      exact congrArg c.flash (by omega)
    · intro a ha
      rw [hc', jump_ram, if_neg (by omega)]
      exact store32_other _ _ _ _ (by unfold magicAddress; omega)

/-- **C87.** Who runs after a restart. In every history that begins with power-on, after a restart the
bootloader runs exactly if the restart asked for it, or the programming button is held, or no complete
application is installed; otherwise the application runs, entered as its vector table says. A request
is thus honoured exactly once. -/
theorem C87_restart (E : Env) (L : Layout E) (c : Chip) (ram : Nat → Byte) (b0 : Bool) (evs : List ChipEv)
    (hs : SoundStack E c.flash) (hb : AllBehave E c (.powerOn ram b0 :: evs)) (into button : Bool) :
    let before := chipLife E c (.powerOn ram b0 :: evs)
    let after := chipLife E c (.powerOn ram b0 :: evs ++ [.restart into button])
    let start := (word before.flash (appFirst E - 256)).toNat
    (into = true ∨ button = true ∨ ¬ AppComplete E before.flash → after.running = .bootloader) ∧
    (into = false → button = false → AppComplete E before.flash →
      after.running = .program (word before.flash start) (word before.flash (start + 4))) := by
  intro before after start
  have hinv : SoundStack E before.flash ∧ load32 before.ram magicAddress ≠ magicWord := by
    show SoundStack E (chipLife E (chipStep E c (.powerOn ram b0)) evs).flash ∧ _
    refine chip_inv L (chipStep E c (.powerOn ram b0)) evs hb.2 ?_ (bootStart_word L _ b0 hs)
    have := chip_inv L { c with ram := fun _ => 0#8 } [.powerOn ram b0] ⟨trivial, trivial⟩ hs (by
      show load32 (fun _ => 0#8) magicAddress ≠ magicWord
      decide)
    exact this.1
  have hafter : after = bootStart E (hwReset (softSystemReset before into)) button := by
    show chipLife E c (.powerOn ram b0 :: evs ++ [.restart into button]) = _
    unfold chipLife
    rw [List.foldl_append]
    rfl
  constructor
  · intro h
    rw [hafter, bootStart_stays L]
    · rfl
    · cases into with
      | true =>
        exact Or.inl (load32_store32_same _ _ _)
      | false =>
        rcases h with h | h | h
        · exact absurd h (by decide)
        · exact Or.inr (Or.inl h)
        · exact Or.inr (Or.inr h)
  · intro h1 h2 h3
    subst h1 h2
    have hm : load32 (hwReset (softSystemReset before false)).ram magicAddress ≠ magicWord := hinv.2
    have ha : AppComplete E (hwReset (softSystemReset before false)).flash := h3
    rw [hafter, bootStart_starts L _ hm ha]
    rfl

/-- **C87.** After power-on the same holds unless the RAM happens to contain the magic word. -/
theorem C87_power_on (E : Env) (L : Layout E) (c : Chip) (evs : List ChipEv) (ram : Nat → Byte)
    (button : Bool) (hr : word ram 0x10000000 ≠ 0x5E1FB055#32) :
    let before := chipLife E c evs
    (chipLife E c (evs ++ [.powerOn ram button])).running = .bootloader ↔
      button = true ∨ ¬ AppComplete E before.flash := by
  intro before
  have hafter : chipLife E c (evs ++ [.powerOn ram button])
      = bootStart E (hwReset { before with ram := ram }) button := by
    unfold chipLife
    rw [List.foldl_append]
    rfl
  rw [hafter]
  constructor
  · intro h
    apply Classical.byContradiction
    intro hn
    have h2 : button = false := by
      cases button with
      | true => exact absurd (Or.inl rfl) hn
      | false => rfl
    have h3 : AppComplete E before.flash := Classical.byContradiction fun e => hn (Or.inr e)
    subst h2
    rw [bootStart_starts L (hwReset { before with ram := ram }) hr h3] at h
    exact absurd h (by intro h; cases h)
  · intro h
    rw [bootStart_stays L]
    · rfl
    · exact Or.inr h

/-! ## Non-vacuity -/

/-- The application of C45 with a vector table: stack pointer 0x10002000, reset vector 0x1009. -/
def vecApp : List Byte := le32 0x10002000#32 ++ le32 0x1009#32 ++ (List.range 24).map (BitVec.ofNat 8 ·)
def vecFlash : Nat → Byte := fun a =>
  if a < 0xF00 then 0x11#8
  else if a < 0x1000 then
    (le32 0x1000#32 ++ le32 0x101F#32 ++ le32 (crc32Std vecApp) ++ le32 0x1010#32).getD (a - 0xF00) 0xFF#8
  else vecApp.getD (a - 0x1000) 0xFF#8

def vecChip : Chip := ⟨vecFlash, fun _ => 0x3C#8, 2, .bootloader⟩

theorem vecSound : SoundStack demoEnv vecFlash := by
  intro _
  have : word vecFlash (word vecFlash (appFirst demoEnv - 256)).toNat = 0x10002000#32 := by decide +kernel
  rw [this]
  unfold PointsIntoRam
  decide

/-- Power-on starts the application; it asks for the bootloader, which runs after the restart, and not
after the next one; with the button held it runs again. -/
example : SoundStack demoEnv vecFlash ∧
    AllBehave demoEnv vecChip [.powerOn (fun _ => 0x3C#8) false, .restart true false] ∧
    (chipLife demoEnv vecChip [.powerOn (fun _ => 0x3C#8) false]).running
      = .program 0x10002000#32 0x1009#32 ∧
    (chipLife demoEnv vecChip [.powerOn (fun _ => 0x3C#8) false, .restart true false]).running
      = .bootloader ∧
    (chipLife demoEnv vecChip [.powerOn (fun _ => 0x3C#8) false, .restart true false,
      .restart false false]).running = .program 0x10002000#32 0x1009#32 ∧
    (chipLife demoEnv vecChip [.powerOn (fun _ => 0x3C#8) false, .restart false true]).running
      = .bootloader := by
  refine ⟨vecSound, ⟨trivial, trivial, trivial⟩, ?_, ?_, ?_, ?_⟩ <;> decide +kernel

/-- The stack pointer of the application matters: with the magic word in its place every restart ends in
the bootloader. -/
example : ∃ flash, AppComplete demoEnv flash ∧
    (chipLife demoEnv ⟨flash, fun _ => 0x3C#8, 2, .bootloader⟩
      [.powerOn (fun _ => 0x3C#8) false, .restart false false]).running = .bootloader := by
  let app := le32 magicWord ++ le32 0x1009#32 ++ (List.range 24).map (BitVec.ofNat 8 ·)
  let flash : Nat → Byte := fun a =>
    if a < 0xF00 then 0x11#8
    else if a < 0x1000 then
      (le32 0x1000#32 ++ le32 0x101F#32 ++ le32 (crc32Std app) ++ le32 0x1010#32).getD (a - 0xF00) 0xFF#8
    else app.getD (a - 0x1000) 0xFF#8
  exact ⟨flash, by unfold AppComplete; decide +kernel, by decide +kernel⟩

end Verif.Boot
