import Verif.Eeprom.Lemmas

/-!
# C28, C29 — saving and restoring the user EEPROM
-/

namespace Verif.Eeprom

open Verif.Iap

/-- No save of the history ended in `fatalError()` or was interrupted. -/
def Undisturbed (E : Env) (c : Cfg) (s : Dev) (es : List Ev) : Prop :=
  ∀ k, (run E c s (es.take k)).halted = false

theorem mark_sealed {c : Cfg} (hc : Known c) (d : Image) (i : Nat) :
    mark c d i = sealed c.size d i := by
  obtain ⟨h0, _⟩ := known_facts hc
  unfold mark sealed
  by_cases h : i = c.size - 1
  · rw [if_pos h, if_pos (by omega)]
  · rw [if_neg h, if_neg (by omega)]

/-- Device and ideal EEPROM agree. -/
structure Agree (E : Env) (c : Cfg) (s : Dev) (t : Ideal) : Prop where
  now : Same c.size s.eep.data t.now
  dirty : s.eep.modified = t.dirty
  saved : Same c.size (readUserEeprom E c s.hw.flash).data t.saved

theorem agree_step {E : Env} (hF : FlashOk E) {c : Cfg} (hc : Known c) {s : Dev} {t : Ideal}
    (ha : Agree E c s t) (hs : s.halted = false) (e : Ev)
    (hs' : (step E c s e).halted = false) : Agree E c (step E c s e) (Ideal.step c.size t e) := by
  cases e with
  | change d =>
    simp only [step, hs, Bool.false_eq_true, if_false, Ideal.step]
    exact ⟨fun _ _ => rfl, rfl, ha.saved⟩
  | poke d =>
    simp only [step, hs, Bool.false_eq_true, if_false, Ideal.step]
    exact ⟨fun _ _ => rfl, ha.dirty, ha.saved⟩
  | restart => exact ⟨ha.saved, rfl, ha.saved⟩
  | save =>
    simp only [step, hs, Bool.false_eq_true, if_false, Bool.not_eq_eq_eq_not, Bool.not_false] at hs'
    simp only [step, hs, Bool.false_eq_true, if_false, Ideal.step]
    cases hm : s.eep.modified
    · rw [← ha.dirty, hm]
      unfold writeUserEeprom
      simp only [hm, Bool.not_false, if_true, Bool.false_eq_true, if_false]
      exact ⟨ha.now, by rw [hm, ← ha.dirty, hm], ha.saved⟩
    · rw [← ha.dirty, hm]
      obtain ⟨h1, j, h2, h3, _⟩ := save_done hF hc hm hs'
      have hsame : Same c.size (mark c s.eep.data) (sealed c.size t.now) := by
        intro i hi
        rw [mark_sealed hc]
        unfold sealed
        split
        · rfl
        · exact ha.now i hi
      simp only [if_true]
      refine ⟨?_, ?_, ?_⟩
      · rw [h1]; exact hsame
      · rw [h1]
      · intro i hi
        rw [read_image h2 i hi, h3 i hi]
        exact hsame i hi

theorem agree_run {E : Env} (hF : FlashOk E) {c : Cfg} (hc : Known c) {s : Dev} {t : Ideal}
    (ha : Agree E c s t) (es : List Ev) (hs : Undisturbed E c s es) :
    Agree E c (run E c s es) (Ideal.run c.size t es) := by
  induction es generalizing s t with
  | nil => exact ha
  | cons e es ih =>
    have h0 := hs 0
    have h1 := hs 1
    refine ih (agree_step hF hc ha h0 e ?_) ?_
    · simpa [run] using h1
    · intro k
      have := hs (k + 1)
      simpa [run] using this

/-- What a device finds at its first power-up. -/
def factory (E : Env) (c : Cfg) (f : Nat → Byte) : Ideal :=
  ⟨(powerUp E c f).eep.data, false, (powerUp E c f).eep.data⟩

/-- C28. For every device type, every flash content at the first power-up and every history of
changes, saves and restarts in which no save was interrupted: the EEPROM content, the modified flag
and the content found by a restart are those of an ideal EEPROM (`Ideal`). -/
theorem C28_last_saved {E : Env} (hF : FlashOk E) {c : Cfg} (hc : Known c) (f : Nat → Byte)
    (es : List Ev) (hs : Undisturbed E c (powerUp E c f) es) :
    let s := run E c (powerUp E c f) es
    let t := Ideal.run c.size (factory E c f) es
    Same c.size s.eep.data t.now ∧ s.eep.modified = t.dirty ∧
      Same c.size (step E c s .restart).eep.data t.saved := by
  have h := agree_run hF hc (t := factory E c f)
    ⟨fun _ _ => rfl, rfl, fun _ _ => rfl⟩ es hs
  exact ⟨h.now, h.dirty, h.saved⟩

/-- A device with an erased EEPROM sector starts with an image of zeros. -/
theorem C28_blank_is_zero {E : Env} (hF : FlashOk E) {c : Cfg} (hc : Known c) (f : Nat → Byte)
    (hb : Blank E f) (i : Nat) : (powerUp E c f).eep.data i = 0#8 := by
  obtain ⟨h0, h1, h2, h3, h4, h5⟩ := known_facts hc
  rcases find_cases E c f with ⟨j, hl, _⟩ | ⟨_, hn⟩
  · exfalso
    have hbd := pageAddr_bound hF hc hl.1
    have hF2 := hF.2.1
    have hu := hl.2.1
    unfold Used at hu
    have := hb (pageAddr E c j + (c.size - 1) - sectorAddr E) (by unfold sectorAddr at *; omega)
    rw [show sectorAddr E + (pageAddr E c j + (c.size - 1) - sectorAddr E) =
      pageAddr E c j + (c.size - 1) by unfold sectorAddr at *; omega] at this
    exact hu this
  · simp only [powerUp, readUserEeprom, hn]

theorem blank_clean {E : Env} (hF : FlashOk E) {c : Cfg} (hc : Known c) {f : Nat → Byte}
    (hb : Blank E f) : Clean E c f := by
  obtain ⟨h0, h1, h2, h3, h4, h5⟩ := known_facts hc
  intro k hk _ i hi
  have hbd := pageAddr_bound hF hc hk
  have hF2 := hF.2.1
  have := hb (pageAddr E c k + i - sectorAddr E) (by unfold sectorAddr at *; omega)
  rw [show sectorAddr E + (pageAddr E c k + i - sectorAddr E) = pageAddr E c k + i by
    unfold sectorAddr at *; omega] at this
  exact this

theorem clean_step {E : Env} (hF : FlashOk E) {c : Cfg} (hc : Known c) {s : Dev}
    (hcl : Clean E c s.hw.flash) (hs : s.halted = false) (e : Ev)
    (hs' : (step E c s e).halted = false) : Clean E c (step E c s e).hw.flash := by
  cases e with
  | change d => simpa only [step, hs, Bool.false_eq_true, if_false] using hcl
  | poke d => simpa only [step, hs, Bool.false_eq_true, if_false] using hcl
  | restart => exact hcl
  | save =>
    simp only [step, hs, Bool.false_eq_true, if_false, Bool.not_eq_eq_eq_not, Bool.not_false]
      at hs' ⊢
    cases hm : s.eep.modified
    · unfold writeUserEeprom
      simp only [hm, Bool.not_false, if_true]
      exact hcl
    · obtain ⟨_, j, _, _, h4⟩ := save_done hF hc hm hs'
      exact h4 hcl

theorem clean_run {E : Env} (hF : FlashOk E) {c : Cfg} (hc : Known c) {s : Dev}
    (hcl : Clean E c s.hw.flash) (es : List Ev) (hs : Undisturbed E c s es) :
    Clean E c (run E c s es).hw.flash := by
  induction es generalizing s with
  | nil => exact hcl
  | cons e es ih =>
    have h1 := hs 1
    refine ih (clean_step hF hc hcl (hs 0) e (by simpa [run] using h1)) ?_
    intro k
    simpa [run] using hs (k + 1)

/-- On working flash, starting from an erased sector, every save of every history completes:
`fatalError()` is never reached, however often the sector has to be erased. -/
theorem C28_saves_complete {E : Env} (hF : FlashOk E) (hE : ∀ k, E.fault k = none) {c : Cfg}
    (hc : Known c) (f : Nat → Byte) (hb : Blank E f) (es : List Ev) :
    Undisturbed E c (powerUp E c f) es := by
  have key : ∀ (es : List Ev) (s : Dev), Clean E c s.hw.flash → s.halted = false →
      (run E c s es).halted = false := by
    intro es
    induction es with
    | nil => intro s _ hs; exact hs
    | cons e es ih =>
      intro s hcl hs
      have hs' : (step E c s e).halted = false := by
        cases e with
        | change d => simpa only [step, hs, Bool.false_eq_true, if_false] using hs
        | poke d => simpa only [step, hs, Bool.false_eq_true, if_false] using hs
        | restart => rfl
        | save =>
          simp only [step, hs, Bool.false_eq_true, if_false, Bool.not_eq_eq_eq_not, Bool.not_false]
          exact save_noFault hE hF hc hcl
      exact ih _ (clean_step hF hc hcl hs e hs') hs'
  exact fun k => key _ _ (blank_clean hF hc hb) rfl

/-- The two statements together: on working flash a device with a fresh sector restores after a
restart what was last saved (zeros before the first save). -/
theorem C28_restores {E : Env} (hF : FlashOk E) (hE : ∀ k, E.fault k = none) {c : Cfg}
    (hc : Known c) (f : Nat → Byte) (hb : Blank E f) (es : List Ev) :
    Same c.size (step E c (run E c (powerUp E c f) es) .restart).eep.data
      (Ideal.run c.size blankIdeal es).saved := by
  have h := agree_run hF hc (t := blankIdeal)
    ⟨fun i _ => C28_blank_is_zero hF hc f hb i, rfl, fun i _ => C28_blank_is_zero hF hc f hb i⟩ es
    (C28_saves_complete hF hE hc f hb es)
  exact h.saved

/-- A controller with 16 KiB of working flash. -/
def dEnv : Env := ⟨0x4000, fun _ => none, fun _ _ => 0#8⟩
def dBlank : Nat → Byte := fun _ => 0xff#8

example : FlashOk dEnv := by unfold FlashOk dEnv; decide

example := C28_restores (E := dEnv) (by unfold FlashOk dEnv; decide) (fun _ => rfl)
  (c := bcu2) (Or.inr (Or.inl rfl)) dBlank (fun _ _ => rfl)
  [.change (fun i => BitVec.ofNat 8 i), .save, .restart, .poke fun _ => 3#8, .save,
   .change fun _ => 5#8, .restart, .change fun _ => 6#8, .save]

-- the last image in this history is the constant 6, sealed; the one before the numbers
example : (Ideal.run 1024 blankIdeal [.change (fun i => BitVec.ofNat 8 i), .save, .restart,
    .poke fun _ => 3#8, .save]).saved 7 = 7#8 := by decide

/-! ## C29 — power failure during a save -/

/-- The flash content after power failed during some ROM call of the save of `img` to the page at
`p`: the bytes were being programmed in ascending order. -/
def TornAscending (E : Env) (c : Cfg) (p : Nat) (img : Image) : Prop :=
  ∀ k, ∃ n, ∀ i, i < c.size → E.garbage k (p + i) = if i < n then img i else 0xff#8

/-- The weaker condition that is needed: at no point of the programming is the last byte of the page
(the mark of a used page) changed before the page is complete. -/
def MarkLast (E : Env) (c : Cfg) (p : Nat) (img : Image) : Prop :=
  ∀ k, E.garbage k (p + (c.size - 1)) = 0xff#8 ∨ ∀ i, i < c.size → E.garbage k (p + i) = img i

theorem TornAscending.markLast {E : Env} {c : Cfg} {p : Nat} {img : Image} (hs : 0 < c.size)
    (h : TornAscending E c p img) : MarkLast E c p img := by
  intro k
  obtain ⟨n, hn⟩ := h k
  by_cases hcmp : c.size - 1 < n
  · exact Or.inr fun i hi => by rw [hn i hi, if_pos (by omega)]
  · left
    rw [hn _ (by omega), if_neg hcmp]

theorem and_ff (x : Byte) : 0xff#8 &&& x = x := by
  rw [show 0xff#8 = BitVec.allOnes 8 by decide, BitVec.allOnes_and]

/-- The effect of one interrupted or completed program call on an erased page. -/
theorem program_torn {E : Env} {hw : Hw} {rom : U32} {ram : Nat → Byte} {size : Nat}
    (hsz : 0 < size)
    (hblank : ∀ i, i < size → hw.flash (rom.toNat + i) = 0xff#8)
    (htorn : ∀ k, E.garbage k (rom.toNat + (size - 1)) = 0xff#8 ∨
      ∀ i, i < size → E.garbage k (rom.toNat + i) = ram i) :
    (program E hw rom ram size).2.flash (rom.toNat + (size - 1)) = 0xff#8 ∨
      ∀ i, i < size → (program E hw rom ram size).2.flash (rom.toNat + i) = ram i := by
  unfold program
  dsimp only
  split
  · rw [prepare_flash]
    exact Or.inl (hblank _ (by omega))
  · obtain ⟨hw1, h1⟩ : ∃ x, (prepareSectorRange E hw (sectorOfAddress rom)
      (sectorOfAddress (rom + BitVec.ofNat 32 size - 1#32))).2 = x := ⟨_, rfl⟩
    have hf1 : hw1.flash = hw.flash := by rw [← h1, prepare_flash]
    rw [h1, hf1]
    obtain ⟨r, hr⟩ : ∃ x, call E hw1 (copyArgs E rom.toNat size) rom.toNat
        (rom.toNat + size) (fun a => hw.flash a &&& ram (a - rom.toNat)) = x := ⟨_, rfl⟩
    have key : r.2.flash (rom.toNat + (size - 1)) = 0xff#8 ∨
        ∀ i, i < size → r.2.flash (rom.toNat + i) = ram i := by
      rw [← hr]
      unfold call
      split
      · exact Or.inl (by simpa [hf1] using hblank _ (by omega : size - 1 < size))
      · split
        · rcases htorn hw1.calls with hn | hn
          · left
            rw [← hn]
            exact writeRange_in ⟨by omega, by omega⟩
          · right
            intro i hi
            rw [← hn i hi]
            exact writeRange_in ⟨by omega, by omega⟩
        · right
          intro i hi
          dsimp only
          rw [writeRange_in ⟨by omega, by omega⟩, hblank i hi, and_ff,
            show rom.toNat + i - rom.toNat = i by omega]
    rw [hr]
    split
    · exact key
    · rw [call_zero]
      exact key

theorem chunk_one {c : Cfg} (hc : Known c) {j : Nat} (hj : j + 1 < numPages c) :
    chunks c.size = [0] ∧ min (c.size - 0) 1024 = c.size := by
  rcases hc with rfl | rfl | rfl
  · exact ⟨by decide, by decide⟩
  · exact ⟨by decide, by decide⟩
  · exfalso
    have : numPages mask0701 = 1 := by decide
    rw [this] at hj
    omega

theorem chunk_one_program {E : Env} {c : Cfg} (hc : Known c) {j : Nat} (hj : j + 1 < numPages c)
    (p : Nat) (d : Nat → Byte) (hw : Hw) :
    (programChunks E p d c.size (chunks c.size) hw).2 =
      (program E hw (BitVec.ofNat 32 p) d c.size).2 := by
  obtain ⟨h1, h2⟩ := chunk_one hc hj
  rw [h1]
  simp only [programChunks, Nat.add_zero, Nat.zero_add, h2]
  split <;> rfl

/-- The flash after a completed or interrupted save to the page at `p`. -/
theorem save_torn {E : Env} {c : Cfg} (hc : Known c) {j : Nat} (hj : j + 1 < numPages c) {p : Nat}
    {hw : Hw} {e : Eep} (hm : e.modified = true) (hp : nextPage E c hw.flash = p)
    (hne : p ≠ sectorAddr E) (h32 : p < 2 ^ 32)
    (hblank : ∀ i, i < c.size → hw.flash (p + i) = 0xff#8)
    (htorn : MarkLast E c p (sealed c.size e.data)) :
    ((writeUserEeprom E c hw e).2.1.flash (p + (c.size - 1)) = 0xff#8 ∨
        ∀ i, i < c.size → (writeUserEeprom E c hw e).2.1.flash (p + i) = mark c e.data i) ∧
      ∀ a, ¬ (p ≤ a ∧ a < p + c.size) →
        (writeUserEeprom E c hw e).2.1.flash a = hw.flash a := by
  have e1 : (writeUserEeprom E c hw e).2.1 =
      (programChunks E p (mark c e.data) c.size (chunks c.size) hw).2 := by
    unfold writeUserEeprom
    simp only [hm, Bool.not_true, Bool.false_eq_true, if_false]
    rw [hp, if_neg hne]
    simp only [ne_eq, not_true_eq_false, if_false]
    split <;> rfl
  rw [e1, chunk_one_program hc hj]
  have hrom : (BitVec.ofNat 32 p).toNat = p := toNat_addr h32
  have hn := program_torn (E := E) (hw := hw) (rom := BitVec.ofNat 32 p)
    (ram := mark c e.data) (size := c.size) (known_facts hc).1
    (by rw [hrom]; exact hblank)
    (by
      rw [hrom]
      intro k
      refine (htorn k).imp id fun h i hi => ?_
      rw [h i hi, mark_sealed hc])
  rw [hrom] at hn
  refine ⟨hn, fun a ha => ?_⟩
  apply program_out
  rw [hrom]
  exact ha

/-- C29, partial.  The history `es` contains no interrupted save, the sector was erased at first
power-up and the page behind the last page in use (`j`) exists, so that the save need not erase the
sector.  If power fails at any point of the save (or the save completes), a restart finds the
complete old or the complete new image.

Missing from C29: histories that contain an earlier interrupted save (there it is false, see
`C29_next_save_corrupts`), and flash that changes the last byte of a page before the others are
complete (`MarkLast` excludes it; without it C29 is false, see `C29_needs_mark_last`).  The code
cannot influence the order; flash that is programmed in ascending order meets `MarkLast`
(`TornAscending.markLast`). -/
theorem C29_old_or_new_partial {E : Env} (hF : FlashOk E) {c : Cfg} (hc : Known c) (f : Nat → Byte)
    (hb : Blank E f) (es : List Ev) (hs : Undisturbed E c (powerUp E c f) es) (j : Nat)
    (hl : LastUsed E c (run E c (powerUp E c f) es).hw.flash j) (hj : j + 1 < numPages c)
    (htorn : MarkLast E c (pageAddr E c (j + 1))
      (sealed c.size (run E c (powerUp E c f) es).eep.data)) :
    let s := run E c (powerUp E c f) es
    let after := (run E c s [.save, .restart]).eep.data
    Same c.size after (step E c s .restart).eep.data ∨
      Same c.size after (sealed c.size s.eep.data) := by
  intro s after
  obtain ⟨h0, h1, h2, h3, h4, h5⟩ := known_facts hc
  have hcl : Clean E c s.hw.flash := clean_run hF hc (blank_clean hF hc hb) es hs
  have hsh : s.halted = false := by
    have := hs es.length
    rwa [List.take_length] at this
  have hl' : LastUsed E c s.hw.flash j := hl
  have hbd := pageAddr_bound hF hc hj
  have hft := hF.2.2
  -- the save
  have hafter : after = (readUserEeprom E c (writeUserEeprom E c s.hw s.eep).2.1.flash).data := by
    show (run E c s [.save, .restart]).eep.data = _
    simp only [run, List.foldl, step, hsh, Bool.false_eq_true, if_false]
  rw [hafter]
  have hold : (step E c s .restart).eep.data = (readUserEeprom E c s.hw.flash).data := rfl
  rw [hold]
  cases hm : s.eep.modified
  · left
    unfold writeUserEeprom
    simp only [hm, Bool.not_false, if_true]
    exact fun _ _ => rfl
  · have hp : nextPage E c s.hw.flash = pageAddr E c (j + 1) ∧
        nextPage E c s.hw.flash ≠ sectorAddr E := by
      rcases nextPage_cases E hc s.hw.flash with ⟨k, k1, _, k3, k4⟩ | ⟨_, hall⟩
      · have e := (find_lastUsed hl').symm.trans (find_lastUsed k1)
        have e := Option.some.inj e
        rw [pageAddr_eq, pageAddr_eq] at e
        have : j = k := Nat.eq_of_mul_eq_mul_left h5 (by omega)
        subst this
        exact ⟨k3, k4⟩
      · have := hall j hl'; omega
    -- flash after the save
    obtain ⟨hn, hout⟩ := save_torn hc hj hm hp.1 (hp.1 ▸ hp.2) (by omega)
      (hcl (j + 1) hj (fun m h1 h2 => hl'.2.2 m (by omega) h2)) htorn
    have hkeep : ∀ k, k < numPages c → k ≠ j + 1 → ∀ i, i < c.size →
        (writeUserEeprom E c s.hw s.eep).2.1.flash (pageAddr E c k + i) =
          s.hw.flash (pageAddr E c k + i) := by
      intro k hk hne i hi
      apply hout
      rcases page_disjoint (E := E) (c := c) hne with hd | hd <;> omega
    rcases Classical.em (∀ i, i < c.size → (writeUserEeprom E c s.hw s.eep).2.1.flash
        (pageAddr E c (j + 1) + i) = mark c s.eep.data i) with hcmp | hcmp
    · right
      have hlu : LastUsed E c (writeUserEeprom E c s.hw s.eep).2.1.flash (j + 1) := by
        refine ⟨hj, ?_, ?_⟩
        · unfold Used
          rw [hcmp _ (by omega)]
          unfold mark
          rw [if_pos rfl]
          decide
        · intro k hk1 hk2
          unfold Used
          rw [hkeep k hk2 (by omega) _ (by omega)]
          exact hl'.2.2 k (by omega) hk2
      intro i hi
      rw [read_image hlu i hi, hcmp i hi, mark_sealed hc]
    · left
      have hmk := hn.resolve_right hcmp
      have hlu : LastUsed E c (writeUserEeprom E c s.hw s.eep).2.1.flash j := by
        refine ⟨hl'.1, ?_, ?_⟩
        · unfold Used
          rw [hkeep j hl'.1 (by omega) _ (by omega)]
          exact hl'.2.1
        · intro k hk1 hk2
          unfold Used
          by_cases hkj : k = j + 1
          · subst hkj
            rw [hmk]
            simp
          · rw [hkeep k hk2 hkj _ (by omega)]
            exact hl'.2.2 k (by omega) hk2
      intro i hi
      rw [read_image hlu i hi, read_image hl' i hi, hkeep j hl'.1 (by omega) i hi]

/-- Power fails in the ROM call number `k`; the first 100 bytes of the second page were programmed
with the value 7. -/
def dTorn (k : Nat) : Env :=
  ⟨0x4000, fun i => if i = k then some 0 else none,
    fun _ a => if 0x3100 ≤ a ∧ a < 0x3100 + 100 then 7#8 else 0xff#8⟩

/-- One save of the constant 5 has been completed, the constant 7 is about to be saved. -/
def dHistory : List Ev := [.change fun _ => 5#8, .save, .change fun _ => 7#8]

/-- The ROM calls of the first save are number 0 to 5 (erase and program); call 7 programs the
second page. -/
theorem dTorn_halts : (run (dTorn 7) bcu1 (powerUp (dTorn 7) bcu1 dBlank)
    (dHistory ++ [.save])).halted = true := by decide +kernel

/-- The device before the interrupted save. -/
local notation "dBefore" => run (dTorn 7) bcu1 (powerUp (dTorn 7) bcu1 dBlank) dHistory

theorem torn_undisturbed : Undisturbed (dTorn 7) bcu1 (powerUp (dTorn 7) bcu1 dBlank)
    dHistory := by
  intro k
  have : k = 0 ∨ k = 1 ∨ k = 2 ∨ 3 ≤ k := by omega
  rcases this with rfl | rfl | rfl | h
  · decide +kernel
  · decide +kernel
  · decide +kernel
  · rw [List.take_of_length_le (by simpa [dHistory] using h)]
    decide +kernel

theorem torn_used : LastUsed (dTorn 7) bcu1 (dBefore).hw.flash 0 := by
  refine ⟨by decide, by unfold Used; decide +kernel, ?_⟩
  have h : ∀ k, k < numPages bcu1 → 0 < k →
      (dBefore).hw.flash (pageAddr (dTorn 7) bcu1 k + (bcu1.size - 1)) = 0xff#8 := by decide +kernel
  intro k h1 h2 hu
  exact hu (h k h2 h1)

theorem torn_ascending : TornAscending (dTorn 7) bcu1 (pageAddr (dTorn 7) bcu1 (0 + 1))
    (sealed bcu1.size (dBefore).eep.data) := by
  have h : ∀ i, i < bcu1.size → (dTorn 7).garbage 0 (pageAddr (dTorn 7) bcu1 (0 + 1) + i) =
      if i < 100 then sealed bcu1.size (dBefore).eep.data i else 0xff#8 := by decide +kernel
  exact fun _ => ⟨100, h⟩

theorem dTorn_flash : FlashOk (dTorn 7) := by unfold FlashOk dTorn; decide

theorem dTorn_blank : Blank (dTorn 7) dBlank := fun _ _ => rfl

example := @C29_old_or_new_partial (dTorn 7) dTorn_flash bcu1 (Or.inl rfl) dBlank dTorn_blank dHistory
  torn_undisturbed 0 torn_used (by decide) (torn_ascending.markLast (by decide))

/-- C29, limit: without `MarkLast` the property is false.  Power fails when only the second half of
the page has been programmed: the device restarts with an image that is neither the old one
(constant 5) nor the new one (constant 7). -/
theorem C29_needs_mark_last :
    ∃ E : Env, FlashOk E ∧ Blank E dBlank ∧
      (run E bcu1 (powerUp E bcu1 dBlank) dHistory).halted = false ∧
      (run E bcu1 (powerUp E bcu1 dBlank) (dHistory ++ [.save, .restart])).eep.data 0 = 0xff#8 ∧
      (run E bcu1 (powerUp E bcu1 dBlank) (dHistory ++ [.save, .restart])).eep.data 200 = 7#8 :=
  ⟨⟨0x4000, fun i => if i = 7 then some 0 else none,
    fun _ a => if a = 0x31ff then 0#8 else if 0x3180 ≤ a then 7#8 else 0xff#8⟩,
    by unfold FlashOk; decide, fun _ _ => rfl, by decide +kernel, by decide +kernel,
    by decide +kernel⟩

/-- C28/C29, limit: the page that was left half programmed by a power failure is not erased before
the next save.  The history of the example above, continued: after the interrupted save the device
restores the old image (5); the next save (of the constant 8) ends in `fatalError()`, and from then
on a restart restores an image that was never saved: 0 = 7 AND 8 in the first 100 bytes, 8 in the
rest. -/
theorem C29_next_save_corrupts :
    ∃ (E : Env) (es : List Ev), FlashOk E ∧ Blank E dBlank ∧
      let s := run E bcu1 (powerUp E bcu1 dBlank) es
      s.halted = false ∧ (∀ i, i < 255 → s.eep.data i = 5#8) ∧
      let s1 := run E bcu1 s [.change (fun _ => 8#8), .save]
      s1.halted = true ∧
      (step E bcu1 s1 .restart).eep.data 0 = 0#8 ∧ (step E bcu1 s1 .restart).eep.data 200 = 8#8 :=
  ⟨dTorn 7, dHistory ++ [.save, .restart], by unfold FlashOk dTorn; decide, fun _ _ => rfl,
    by decide +kernel, by decide +kernel, by decide +kernel, by decide +kernel, by decide +kernel⟩

/-- The save that has to erase the sector is not safe (the property excludes it): if power fails
between erasing and programming, the device restarts with an image of zeros.  On the device types
with a single page every save is of this kind. -/
theorem C29_erase_loses_image :
    ∃ (E : Env) (es : List Ev), FlashOk E ∧ Blank E dBlank ∧
      (run E mask0701 (powerUp E mask0701 dBlank) es).halted = false ∧
      (step E mask0701 (run E mask0701 (powerUp E mask0701 dBlank) es) .restart).eep.data 0 = 5#8 ∧
      (run E mask0701 (powerUp E mask0701 dBlank)
        (es ++ [.change (fun _ => 7#8), .save, .restart])).eep.data 0 = 0#8 := by
  refine ⟨⟨0x4000, fun i => if i = 15 then some 0 else none, fun _ _ => 0xff#8⟩,
    [.change fun _ => 5#8, .save], by unfold FlashOk; decide, fun _ _ => rfl, ?_, ?_, ?_⟩ <;>
    decide +kernel

end Verif.Eeprom
