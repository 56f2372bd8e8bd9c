import Verif.Boot.DiffToolLemmas
import Verif.Boot.PropsDecomp
import Verif.Boot.PropsStart

/-!
# C80: a differential update, from the tool's two images to the device's flash
-/

namespace Verif.Boot
open Verif.Iap Spec Decomp.Spec Tool

/-! ## Specification -/

/-- The flash holds `image` from address `a` on. -/
def Holds (flash : Nat → Byte) (a : Nat) (image : List Byte) : Prop :=
  ∀ x, x < image.length → flash (a + x) = image.getD x 0#8

/-- Flash pages, as numbers of bytes, that an image occupies. -/
def pagesLength (image : List Byte) : Nat := (image.length + 255) / 256 * 256

/-! ## One page -/

theorem flash_keeps {E : Env} {I : Info} {s s' : State} {crc : U32} (hu : s.deviceLocked = DEVICE_UNLOCKED)
    (hp : receive E I s (msgProgramDecompressed crc) = some (s', ok)) :
    s'.deviceLocked = DEVICE_UNLOCKED ∧ s'.decomp.phase = s.decomp.phase ∧
    s'.decomp.startAddrOfFlash = s.decomp.startAddrOfFlash := by
  rw [receive_programDecompressed hu] at hp
  have hp := Option.some.inj hp
  unfold updProgramDecompressedDataToFlash at hp
  split at hp
  · obtain ⟨rfl, -⟩ := Prod.mk.inj hp; exact ⟨hu, rfl, rfl⟩
  split at hp
  · obtain ⟨rfl, -⟩ := Prod.mk.inj hp; exact ⟨hu, rfl, rfl⟩
  split at hp
  · obtain ⟨rfl, -⟩ := Prod.mk.inj hp; exact ⟨hu, rfl, rfl⟩
  · obtain ⟨rfl, -⟩ := Prod.mk.inj hp
    exact ⟨hu, rfl, rfl⟩

/-- The device, ready for page `k` of the new image. -/
structure Ready (E : Env) (I : Info) (old new : List Byte) (A : U32) (flash0 : Nat → Byte) (k : Nat)
    (s : State) : Prop where
  reach : ∃ hw ram ms rs, (∀ m ∈ ms, Telegram m) ∧ run E I (init E hw ram) ms = some (s, rs)
  unlocked : s.deviceLocked = DEVICE_UNLOCKED
  phase : s.decomp.phase = .expectCommandByte
  base : s.decomp.startAddrOfFlash = A
  page : s.decomp.startAddrOfPageToBeFlashed = A + BitVec.ofNat 32 (256 * k)
  empty : pageBytes s.decomp = []
  flash : ∀ x, x < new.length → s.hw.flash (A.toNat + x) = app old new k x
  window : ∀ x, x < 512 → 256 * k + x < new.length + 512 → s.decomp.oldPages x = win old k x
  frame : ∀ x, ¬ (A.toNat ≤ x ∧ x < A.toNat + 256 * k) → s.hw.flash x = flash0 x

theorem page_device {E : Env} (L : Layout E) {I : Info} (hD : E.decompressorBuilt = true)
    (hf : ∀ k, E.fault k = none) {old new : List Byte} {A : U32}
    (hin : InsideApplication E A new.length) {flash0 : Nat → Byte} {k : Nat} {s : State}
    (h : Ready E I old new A flash0 k s) (hk : 256 * k < new.length) {p : List Byte × U32} (hp : Good old new k p) :
    ∃ s', run E I s (sendCompressedPage p) = some (s', (sendCompressedPage p).map (fun _ => ok)) ∧
      Ready E I old new A flash0 (k + 1) s' := by
  obtain ⟨cs, g1, g2, g3, g4⟩ := hp
  obtain ⟨i1, i2, i3⟩ := hin
  have hsz := L.size
  have hpa : (A + BitVec.ofNat 32 (256 * k)).toNat = A.toNat + 256 * k := by
    simp only [BitVec.toNat_add, BitVec.toNat_ofNat]
    omega
  have hpl : (pageOf new k).length = min 256 (new.length - 256 * k) := by
    unfold pageOf
    rw [List.length_take, List.length_drop]
  have hout : pageOf new k = outputAll (fun i => s.hw.flash (s.decomp.startAddrOfFlash.toNat + i))
      s.decomp.oldPages cs := by
    rw [← g3]
    refine outputAll_congr (fun x hx => ?_) (fun x hx => ?_) cs g2
    · rw [h.base, h.flash x hx]
    · exact (h.window x hx (by omega)).symm
  obtain ⟨d, r1, r2, r3, r4, r5, r6⟩ := C44_stream_reproduces_page E I s h.unlocked hD h.phase
    (by rw [h.base]; omega) cs
    (fun c hc => WF_mono (by rw [h.base]; omega) (g2 c hc)) (pageOf new k) hout
    (by rw [h.empty]; show 0 + _ ≤ 256; omega) (telegrams p.1.length p.1)
    ((telegrams_flatten _ _ (Nat.le_refl _)).trans g1)
    (fun t ht => by have := telegrams_size _ _ t ht; omega)
  rw [h.empty, List.nil_append] at r2
  obtain ⟨hw, ram, ms, rs, q1, q2⟩ := h.reach
  have q3 : run E I (init E hw ram) (ms ++ (telegrams p.1.length p.1).map msgDecompress)
      = some ({ s with decomp := d }, rs ++ (telegrams p.1.length p.1).map (fun _ => ok)) := by
    rw [run_append ms q2, r1]
    rfl
  have q4 : ∀ m ∈ ms ++ (telegrams p.1.length p.1).map msgDecompress, Telegram m := by
    intro m hm
    rcases List.mem_append.mp hm with hm | hm
    · exact q1 m hm
    · obtain ⟨t, ht, rfl⟩ := List.mem_map.mp hm
      have := telegrams_size _ _ t ht
      show (_ :: t).length ≤ 255
      rw [List.length_cons]
      omega
  have hpage : ({ s with decomp := d } : State).decomp.startAddrOfPageToBeFlashed
      = A + BitVec.ofNat 32 (256 * k) := r6.trans h.page
  obtain ⟨s', e1⟩ := C44_page_flash_succeeds E L I hw ram _ q4 _ _ q3 h.unlocked hD hf
    (by
      show pageBytes d ≠ []
      rw [r2]
      intro h0
      rw [h0] at hpl
      have : ([] : List Byte).length = 0 := rfl
      omega)
    (by
      rw [hpage]
      exact ⟨by rw [hpa]; omega, by rw [hpa]; omega, by rw [hpa]; omega⟩)
  have e1' : receive E I { s with decomp := d } (msgProgramDecompressed p.2) = some (s', ok) := by
    rw [g4, ← r2]
    exact e1
  obtain ⟨f1, f2, f3, f4, f5, f6, f7⟩ := C44_page_flashed E L I hw ram _ q4 _ s' _ q3 _ e1
  obtain ⟨k1, k2, k3⟩ := flash_keeps (s := { s with decomp := d }) h.unlocked e1
  rw [hpage, hpa] at f3 f4 f5
  have f3' : ∀ i, i < (pageOf new k).length → s'.hw.flash (A.toNat + 256 * k + i) = (pageOf new k).getD i 0#8 := by
    rw [← r2]
    exact f3
  have f4' : ∀ x, x / 256 ≠ (A.toNat + 256 * k) / 256 → s'.hw.flash x = s.hw.flash x := f4
  have f5' : ∀ i, i < 256 → s'.decomp.oldPages i = s.decomp.oldPages (256 + i) ∧
      s'.decomp.oldPages (256 + i) = s.hw.flash (A.toNat + 256 * k + i) := by
    rw [← r4]
    exact f5
  have r1' : run E I { s with decomp := d } [msgProgramDecompressed p.2] = some (s', [ok]) := by
    unfold run
    unfold receive at e1'
    rw [e1']
    rfl
  refine ⟨s', ?_, ⟨⟨hw, ram, ms ++ (telegrams p.1.length p.1).map msgDecompress ++ [msgProgramDecompressed p.2],
    rs ++ (telegrams p.1.length p.1).map (fun _ => ok) ++ [ok], ?_, ?_⟩, k1, k2.trans r3, k3.trans (r5.trans h.base),
    ?_, f7, ?_, ?_, ?_⟩⟩
  · unfold sendCompressedPage
    rw [run_append _ r1, r1']
    simp [Option.map, List.map_append]
  · intro m hm
    rcases List.mem_append.mp hm with hm | hm
    · exact q4 m hm
    · rw [List.mem_singleton.mp hm]
      show (5 : Nat) ≤ 255
      omega
  · rw [run_append _ q3, r1']
    rfl
  · rw [f6, hpage]
    apply BitVec.eq_of_toNat_eq
    simp only [BitVec.toNat_add, BitVec.toNat_ofNat]
    omega
  · intro x hx
    have hxs := h.flash x hx
    unfold app at hxs ⊢
    by_cases c : 256 * k ≤ x ∧ x < 256 * (k + 1)
    · rw [if_pos c.2]
      have := f3' (x - 256 * k) (by omega)
      rw [show A.toNat + 256 * k + (x - 256 * k) = A.toNat + x by omega] at this
      rw [this]
      unfold pageOf
      rw [List.getD_eq_getElem?_getD, List.getD_eq_getElem?_getD, List.getElem?_take_of_lt (by omega),
        List.getElem?_drop, show 256 * k + (x - 256 * k) = x by omega]
    · rw [f4' _ (by omega), hxs]
      by_cases c1 : x < 256 * k
      · rw [if_pos c1, if_pos (by omega)]
      · rw [if_neg c1, if_neg (by omega)]
  · intro x hx hlt
    by_cases c : x < 256
    · rw [(f5' x c).1, h.window _ (by omega) (by omega)]
      unfold win
      by_cases c2 : 512 ≤ 256 * k + (256 + x)
      · rw [if_pos c2, if_pos (by omega), idx_aux1 k x]
      · rw [if_neg c2, if_neg (by omega)]
    · have := (f5' (x - 256) (by omega)).2
      rw [show 256 + (x - 256) = x by omega] at this
      rw [this, Nat.add_assoc, h.flash _ (by omega)]
      unfold win app
      rw [if_neg (by omega), if_pos (by omega), idx_aux2 k x (by omega)]
  · intro x hx
    have : (A.toNat + 256 * k) / 256 = A.toNat / 256 + k := by omega
    rw [f4' x (by omega), h.frame x (by omega)]

theorem pages_device {E : Env} (L : Layout E) {I : Info} (hD : E.decompressorBuilt = true)
    (hf : ∀ k, E.fault k = none) {old new : List Byte} {A : U32}
    (hin : InsideApplication E A new.length) {flash0 : Nat → Byte} :
    ∀ (ps : List (List Byte × U32)) (k : Nat) (s : State), Ready E I old new A flash0 k s →
      256 * (k + ps.length) < new.length + 256 → (∀ j (h : j < ps.length), Good old new (k + j) ps[j]) →
      ∃ s', run E I s (ps.flatMap sendCompressedPage)
          = some (s', (ps.flatMap sendCompressedPage).map (fun _ => ok)) ∧
        Ready E I old new A flash0 (k + ps.length) s'
  | [], k, s, h, _, _ => ⟨s, rfl, h⟩
  | p :: ps, k, s, h, hlen, hg => by
    rw [List.length_cons] at hlen
    obtain ⟨s1, e1, h1⟩ := page_device (p := p) L hD hf hin h (by omega) (hg 0 (Nat.succ_pos _))
    obtain ⟨s2, e2, h2⟩ := pages_device L hD hf hin ps (k + 1) s1 h1 (by omega) (fun j hj => by
      have := hg (j + 1) (Nat.succ_lt_succ hj)
      rw [show k + 1 + j = k + (j + 1) by omega]
      exact this)
    refine ⟨s2, ?_, ?_⟩
    · rw [List.flatMap_cons, run_append _ e1, e2]
      simp [Option.map, List.map_append]
    · rw [List.length_cons, show k + (ps.length + 1) = k + 1 + ps.length by omega]
      exact h2

/-! ## C80 -/

/-- A whole differential update, up to the state of the device afterwards. -/
theorem diff_device (E : Env) (L : Layout E) (I : Info) (hw : Hw) (ram : Nat → Byte)
    (ms : List (List Byte)) (hm : ∀ m ∈ ms, Telegram m) (s : State) (rs : List Resp)
    (h : run E I (init E hw ram) ms = some (s, rs)) (hu : s.deviceLocked = DEVICE_UNLOCKED)
    (hD : E.decompressorBuilt = true) (hf : ∀ k, E.fault k = none)
    (hfresh : s.decomp = Decomp.init E hw.flash)
    (A : U32) (hA : A = s.decomp.startAddrOfFlash) (old new : List Byte)
    (hold : Holds s.hw.flash A.toNat (old.take new.length))
    (hzero : ∀ x, old.length ≤ x → x < new.length → s.hw.flash (A.toNat + x) = 0#8)
    (hin : InsideApplication E A new.length) :
    ∃ s', run E I s (doDifferentialFlash old new)
        = some (s', (doDifferentialFlash old new).map (fun _ => ok)) ∧
      ∃ k, new.length ≤ 256 * k ∧ 256 * k ≤ pagesLength new ∧
        Ready E I (copyOf old new.length) new A s.hw.flash k s' := by
  have hsz := L.size
  have hlen : new.length ≤ 2 ^ 23 := by
    have := hin.2.2
    omega
  obtain ⟨g1, g2⟩ := generateDiff_good old new hlen
  have hready : Ready E I (copyOf old new.length) new A s.hw.flash 0 s := by
    refine ⟨⟨hw, ram, ms, rs, hm, h⟩, hu, by rw [hfresh]; rfl, hA.symm, ?_, ?_, ?_, ?_, fun _ _ => rfl⟩
    · rw [hA, hfresh]
      show _ = _ + 0#32
      rw [BitVec.add_zero]
      rfl
    · rw [hfresh]; rfl
    · intro x hx
      unfold app copyOf
      rw [if_neg (by omega)]
      by_cases c : x < old.length
      · rw [hold x (by rw [List.length_take]; omega), List.getD_eq_getElem?_getD, List.getD_eq_getElem?_getD,
          List.getElem?_append_left (by rw [List.length_take]; omega)]
      · rw [hzero x (by omega) hx, List.getD_eq_getElem?_getD,
          List.getElem?_append_right (by rw [List.length_take]; omega), List.getElem?_replicate]
        split <;> rfl
    · intro x hx _
      rw [hfresh]
      unfold win
      rw [if_neg (by omega)]
      rfl
  obtain ⟨s', e1, e2⟩ := pages_device L hD hf hin (generateDiff old new) 0 s hready (by rw [g1]; omega)
    (fun j hj => by rw [Nat.zero_add]; exact g2 j hj)
  rw [Nat.zero_add, g1] at e2
  refine ⟨s', e1, _, ?_, ?_, e2⟩
  · omega
  · unfold pagesLength
    omega

/-- **C80, part.** The tool computes the differential update from `old` to `new` and sends it to an unlocked
device that has not started a differential update since power-up. If the device's application starts with
`old` and is followed by zeros as far as `new` is longer, `new` lies inside the application area and the flash
hardware works, then every telegram is acknowledged, the flash holds `new` from the start of the application
on, and nothing outside the pages of `new` has changed. Missing (see the findings): what is behind the old
image has to be zero, telegrams must not be repeated, the start addresses have to agree. -/
theorem C80_differential_update_partial (E : Env) (L : Layout E) (I : Info) (hw : Hw) (ram : Nat → Byte)
    (ms : List (List Byte)) (hm : ∀ m ∈ ms, Telegram m) (s : State) (rs : List Resp)
    (h : run E I (init E hw ram) ms = some (s, rs)) (hu : s.deviceLocked = DEVICE_UNLOCKED)
    (hD : E.decompressorBuilt = true) (hf : ∀ k, E.fault k = none)
    (hfresh : s.decomp = Decomp.init E hw.flash)
    (A : U32) (hA : A = s.decomp.startAddrOfFlash) (old new : List Byte)
    (hold : Holds s.hw.flash A.toNat (old.take new.length))
    (hzero : ∀ x, old.length ≤ x → x < new.length → s.hw.flash (A.toNat + x) = 0#8)
    (hin : InsideApplication E A new.length) :
    ∃ s', run E I s (doDifferentialFlash old new)
        = some (s', (doDifferentialFlash old new).map (fun _ => ok)) ∧
      Holds s'.hw.flash A.toNat new ∧
      ∀ x, ¬ (A.toNat ≤ x ∧ x < A.toNat + pagesLength new) → s'.hw.flash x = s.hw.flash x := by
  obtain ⟨s', e1, k, hk1, hk2, e2⟩ := diff_device E L I hw ram ms hm s rs h hu hD hf hfresh A hA old new hold
    hzero hin
  refine ⟨s', e1, ?_, ?_⟩
  · intro x hx
    rw [e2.flash x hx]
    unfold app
    rw [if_pos (by omega)]
  · intro x hx
    refine e2.frame x ?_
    omega

/-- A device with an application of 32 bytes (0, 1, …, 31) at 0x1000 and erased flash behind it. -/
def demoApp : State := init demoEnv { flash := demoAppFlash, calls := 0 } (fun _ => 0#8)
def demoOld : List Byte := (List.range 32).map (fun i => BitVec.ofNat 8 i)
/-- Three new bytes, then the old application from byte 3 on. -/
def demoNew : List Byte := [0x77#8, 0x78#8, 0x79#8] ++ demoOld.drop 3

theorem demo_diff : generateDiff demoOld demoNew
    = [([3#8, 0x77#8, 0x78#8, 0x79#8, 0x9D#8, 0#8, 0#8, 3#8], crc32Std demoNew)] := by decide +kernel

theorem demo_telegrams : doDifferentialFlash demoOld demoNew
    = [msgDecompress [3#8, 0x77#8, 0x78#8, 0x79#8, 0x9D#8, 0#8, 0#8, 3#8],
      msgProgramDecompressed (crc32Std demoNew)] := by
  unfold doDifferentialFlash
  rw [demo_diff]
  rfl

/-- Non-vacuity: the hypotheses are met, and the update consists of one raw and one copy command. -/
example : Holds demoApp.hw.flash 0x1000 (demoOld.take demoNew.length) ∧ demoNew.length ≤ demoOld.length ∧
    InsideApplication demoEnv 0x1000#32 demoNew.length ∧
    (init demoEnv { flash := demoAppFlash, calls := 0 } (fun _ => 0#8)).decomp.startAddrOfFlash = 0x1000#32 ∧
    generateDiff demoOld demoNew
      = [([3#8, 0x77#8, 0x78#8, 0x79#8, 0x9D#8, 0#8, 0#8, 3#8], crc32Std demoNew)] ∧
    (run demoEnv demoInfo demoApp (msgUnlock demoUid :: doDifferentialFlash demoOld demoNew)).map
      (fun r => (r.2, bytesAt r.1.hw.flash 0x1000 32)) = some ([ok, ok, ok], demoNew) := by
  refine ⟨?_, ?_, ⟨?_, ?_, ?_⟩, ?_, demo_diff, ?_⟩
  case refine_7 => rw [demo_telegrams]; decide +kernel
  all_goals try decide +kernel
  intro x hx
  have : ∀ x : Fin 32, demoApp.hw.flash (0x1000 + x.1) = (demoOld.take demoNew.length).getD x.1 0#8 := by
    decide +kernel
  exact this ⟨x, hx⟩

/-- **C80, finding.** The tool believes that zeros follow the old image. A new image that is the old one
followed by 16 zeros is therefore sent as one copy of the flash; behind the old application the flash is
erased (0xFF), so the page has the wrong CRC-32, the device refuses it and the flash stays as it is. -/
theorem C80_longer_image_fails :
    generateDiff demoOld (demoOld ++ List.replicate 16 0#8)
      = [([0xB0#8, 0#8, 0#8, 0#8], crc32Std (demoOld ++ List.replicate 16 0#8))] ∧
    (run demoEnv demoInfo demoApp
      (msgUnlock demoUid :: doDifferentialFlash demoOld (demoOld ++ List.replicate 16 0#8))).map
      (fun r => (r.2, bytesAt r.1.hw.flash 0x1000 48))
      = some ([ok, ok, lastError UDP_CRC_ERROR], demoOld ++ List.replicate 16 0xFF#8) := by
  have h : generateDiff demoOld (demoOld ++ List.replicate 16 0#8)
      = [([0xB0#8, 0#8, 0#8, 0#8], crc32Std (demoOld ++ List.replicate 16 0#8))] := by decide +kernel
  refine ⟨h, ?_⟩
  unfold doDifferentialFlash
  rw [h]
  decide +kernel

/-- **C80, finding.** The tool repeats a telegram whose answer it missed (DeviceManagement.java:344-377). The
device cannot tell: the bytes are taken twice and the page is refused. -/
theorem C80_repeated_telegram_fails :
    doDifferentialFlash demoOld demoNew = [msgDecompress [3#8, 0x77#8, 0x78#8, 0x79#8, 0x9D#8, 0#8, 0#8, 3#8],
      msgProgramDecompressed (crc32Std demoNew)] ∧
    (run demoEnv demoInfo demoApp [msgUnlock demoUid,
      msgDecompress [3#8, 0x77#8, 0x78#8, 0x79#8, 0x9D#8, 0#8, 0#8, 3#8],
      msgDecompress [3#8, 0x77#8, 0x78#8, 0x79#8, 0x9D#8, 0#8, 0#8, 3#8],
      msgProgramDecompressed (crc32Std demoNew)]).map
      (fun r => (r.2, bytesAt r.1.hw.flash 0x1000 32))
      = some ([ok, ok, ok, lastError UDP_CRC_ERROR], demoOld) := by
  exact ⟨demo_telegrams, by decide +kernel⟩

end Verif.Boot
