import Verif.Boot.FullCommands
import Verif.Boot.PropsFullTool
import Verif.Boot.PropsTelegram

/-!
# C108: an update over a bus that loses and duplicates telegrams

The commands of the update tool, each transmitted over a connection of the transport layer until it is
acknowledged: when all of them are acknowledged, the flash holds the new image, whatever was lost or
duplicated on the way. (If the tool repeats a command instead of the transport layer repeating the telegram,
that is not so: see the findings of C80 and C81.)
-/

namespace Verif.Boot
open Verif.Iap Spec Tool Knx
open Verif.TL4 (Reachable Requests Sys)

/-! ## The commands, one after the other -/

/-- Every command is answered with success. -/
def AllOk (E : Env) (I : Info) (s : State) (ms : List (List Byte)) (s' : State) : Prop :=
  run E I s ms = some (s', ms.map fun _ => ok)

theorem allOk_cons {E : Env} {I : Info} {s s1 s' : State} {m : List Byte} {ms : List (List Byte)}
    (h : receive E I s m = some (s1, ok)) (h' : AllOk E I s1 ms s') : AllOk E I s (m :: ms) s' := by
  unfold AllOk run
  unfold receive at h
  rw [h]
  show (run E I s1 ms).map _ = _
  rw [h']
  rfl

theorem allOk_one {E : Env} {I : Info} {s s1 : State} {m : List Byte}
    (h : receive E I s m = some (s1, ok)) : AllOk E I s [m] s1 := allOk_cons h rfl

theorem allOk_append {E : Env} {I : Info} {s s1 s' : State} {m1 m2 : List (List Byte)}
    (h : AllOk E I s m1 s1) (h' : AllOk E I s1 m2 s') : AllOk E I s (m1 ++ m2) s' := by
  unfold AllOk at *
  rw [run_append m1 h, h', List.map_append]
  rfl

theorem allOk_inv {E : Env} {I : Info} {s s' : State} {m : List Byte} {ms : List (List Byte)}
    (h : AllOk E I s (m :: ms) s') : ∃ s1, receive E I s m = some (s1, ok) ∧ AllOk E I s1 ms s' := by
  obtain ⟨r1, r2, e1, e2, e3⟩ := run_cons h
  obtain ⟨h1, h2⟩ := Prod.mk.inj e3
  rw [List.map_cons] at h2
  obtain ⟨h3, h4⟩ := List.cons.inj h2
  refine ⟨r1.1, ?_, ?_⟩
  · unfold receive
    rw [e1, h3]
  · unfold AllOk
    rw [e2, h1, h4]

theorem allOk_nil {E : Env} {I : Info} {s s' : State} (h : AllOk E I s [] s') : s = s' :=
  (Prod.mk.inj (Option.some.inj h)).1

theorem allOk_split {E : Env} {I : Info} : ∀ {m1 : List (List Byte)} {s s' : State} {m2 : List (List Byte)},
    AllOk E I s (m1 ++ m2) s' → ∃ s1, AllOk E I s m1 s1 ∧ AllOk E I s1 m2 s'
  | [], s, _, _, h => ⟨s, rfl, h⟩
  | m :: m1, s, s', m2, h => by
    obtain ⟨s1, e1, e2⟩ := allOk_inv h
    obtain ⟨s2, e3, e4⟩ := allOk_split e2
    exact ⟨s2, allOk_cons e1 e3, e4⟩

theorem data_ok {E : Env} (L : Layout E) {I : Info} {ram0 : Nat → Byte} {s : State} {data : List Byte}
    (hi : BufInv E ram0 s []) (hu : s.deviceLocked = DEVICE_UNLOCKED) (hsz : data.length ≤ 1265) :
    ∃ s', AllOk E I s (dataCommands data) s' ∧ BufInv E ram0 s' data ∧ s'.hw = s.hw ∧
      s'.deviceLocked = DEVICE_UNLOCKED := by
  have hfl := telegrams_flatten data.length data (Nat.le_refl _)
  obtain ⟨s', e1, e2, e3, e4⟩ := send_all L (I := I) (telegrams data.length data) hi hu
    (fun d hd => by have := telegrams_size _ _ d hd; omega) (by rw [hfl, List.length_nil]; omega)
  rw [hfl, List.nil_append] at e2
  refine ⟨s', ?_, e2, e3, e4⟩
  unfold AllOk dataCommands
  rw [e1, List.map_map]
  rfl

theorem blocks_ok {E : Env} (L : Layout E) {I : Info} {ram0 : Nat → Byte} {B start : Nat}
    (hf : ∀ k, E.fault k = none) (hB : 0 < B) (hB' : B ≤ 1265) (hB'' : B % 256 = 0)
    {image : List Byte} (hal : start % 256 = 0) (hlo : appFirst E ≤ start) (hfit : start + image.length ≤ E.top) :
    ∀ (fuel : Nat) (sent rest : List Byte) (s : State), rest.length ≤ fuel → image = sent ++ rest →
      (sent.length % 256 = 0 ∨ rest = []) → BufInv E ram0 s [] → s.deviceLocked = DEVICE_UNLOCKED →
      Holds s.hw.flash start sent →
      (rest ≠ [] → ∀ x, sent.length ≤ x → x < cap image.length → s.hw.flash (start + x) = 0xFF#8) →
      ∃ s', AllOk E I s (blockCommands B fuel rest (start + sent.length)) s' ∧
        BufInv E ram0 s' [] ∧ s'.deviceLocked = DEVICE_UNLOCKED ∧ Holds s'.hw.flash start image := by
  have hsz := L.size
  have hsec := L.sectors
  intro fuel
  induction fuel with
  | zero =>
    intro sent rest s hfu him hmod hi hu hold hblank
    have : rest = [] := List.eq_nil_of_length_eq_zero (by omega)
    subst this
    refine ⟨s, rfl, hi, hu, ?_⟩
    rw [him, List.append_nil]
    exact hold
  | succ fuel ih =>
    intro sent rest s hfu him hmod hi hu hold hblank
    unfold blockCommands
    by_cases hr : rest = []
    · subst hr
      refine ⟨s, rfl, hi, hu, ?_⟩
      rw [him, List.append_nil]
      exact hold
    · have hemp : rest.isEmpty = false := by
        cases rest with
        | nil => exact absurd rfl hr
        | cons => rfl
      have hrl := List.length_pos_iff.mpr hr
      have hm0 : sent.length % 256 = 0 := by
        rcases hmod with hm | hm
        · exact hm
        · exact absurd hm hr
      rw [hemp, if_neg (by decide)]
      dsimp only
      have htl : (rest.take B).length = min B rest.length := List.length_take ..
      have hil : image.length = sent.length + rest.length := by rw [him, List.length_append]
      have hne : rest.take B ≠ [] := by
        intro h0
        rw [h0, List.length_nil] at htl
        omega
      obtain ⟨s1, q1, q2, q3, q4⟩ := data_ok L (I := I) (data := rest.take B) hi hu (by omega)
      have han : (BitVec.ofNat 32 (start + sent.length)).toNat = start + sent.length := by
        rw [BitVec.toNat_ofNat]; omega
      have hcap : sent.length + cap (rest.take B).length ≤ cap image.length := by
        unfold cap
        rw [hil, htl]
        omega
      have hcapt : start + cap image.length ≤ E.top := by unfold cap; omega
      obtain ⟨s2, e1, e2, e3, e4, e5⟩ := program_answered L (I := I) q2 q4 hf hne
        (a := BitVec.ofNat 32 (start + sent.length))
        ⟨by rw [han]; omega, by rw [han]; omega, by rw [han]; unfold cap at hcap hcapt; omega⟩
        (fun i hlt => by
          rw [han, q3, Nat.add_assoc]
          exact hblank hr _ (by omega) (by omega))
      rw [han] at e4 e5
      rw [Nat.add_assoc, ← List.length_append]
      obtain ⟨s', a1, a2⟩ := ih (sent ++ rest.take B) (rest.drop B) s2
        (by rw [List.length_drop]; omega) (by rw [List.append_assoc, List.take_append_drop]; exact him)
        (by
          by_cases hb : B ≤ rest.length
          · left; rw [List.length_append, htl]; omega
          · right; exact List.drop_of_length_le (by omega)) e3 e2
        (by
          intro x hx
          rw [List.length_append] at hx
          by_cases hxs : x < sent.length
          · rw [getD_append_lt hxs, ← hold x hxs, ← q3]
            exact e5 _ (fun hc => by have := hc.1; omega)
          · rw [getD_append_ge (by omega)]
            have := e4 (x - sent.length) (by omega)
            rw [show start + sent.length + (x - sent.length) = start + x by omega] at this
            exact this)
        (by
          intro hrd x hx hx'
          rw [List.length_append, htl] at hx
          rw [← hblank hr x (by omega) hx', ← q3]
          refine e5 _ (fun hc => ?_)
          have hc2 := hc.2
          by_cases hb : B ≤ rest.length
          · unfold cap at hc2; rw [htl] at hc2; omega
          · exact hrd (List.drop_of_length_le (by omega)))
      exact ⟨s', allOk_append (allOk_append q1 (allOk_one e1)) a1, a2⟩

/-- The descriptor, for an image that is in the flash. -/
theorem descriptor_ok {E : Env} (L : Layout E) {I : Info} {ram0 : Nat → Byte} {s : State} {image : List Byte}
    {start version : Nat} (hi : BufInv E ram0 s []) (hu : s.deviceLocked = DEVICE_UNLOCKED)
    (hf : ∀ k, E.fault k = none) (hodd : E.imageEnd % 256 ≠ 1) (hlen : 2 ≤ image.length)
    (hlo : appFirst E ≤ start) (hfit : start + image.length ≤ E.top) (hold : Holds s.hw.flash start image) :
    ∃ s', AllOk E I s (dataCommands (descriptor image start version) ++
      [msgUpdateDescriptor (BitVec.ofNat 32 (descriptor image start version).length)
        (crc32Std (descriptor image start version))]) s' ∧
      Holds s'.hw.flash start image ∧ startup E s'.hw.flash false false = some (BitVec.ofNat 32 start) := by
  have hsz := L.size
  have hge := appFirst_ge E
  have hs32 : (BitVec.ofNat 32 start).toNat = start := by rw [BitVec.toNat_ofNat]; omega
  have he32 : (BitVec.ofNat 32 (start + image.length - 1)).toNat = start + image.length - 1 := by
    rw [BitVec.toNat_ofNat]; omega
  obtain ⟨s4, e4, i4, w4, u4⟩ := data_ok L (I := I) (data := descriptor image start version) hi hu
    (by rw [descriptor_length]; omega)
  have hram : bytesAt s4.ram 0 16 = descriptor image start version := i4.data
  have hw0 : load32 s4.ram 0 = BitVec.ofNat 32 start :=
    load_at (pre := []) (post := le32 (BitVec.ofNat 32 (start + image.length - 1)) ++ (le32 (crc32Std image) ++
      le32 (BitVec.ofNat 32 version))) (by rw [hram]; rfl)
  have hw4 : load32 s4.ram 4 = BitVec.ofNat 32 (start + image.length - 1) :=
    load_at (pre := le32 (BitVec.ofNat 32 start)) (post := le32 (crc32Std image) ++
      le32 (BitVec.ofNat 32 version)) (by rw [hram]; rfl)
  have hw8 : load32 s4.ram 8 = crc32Std image :=
    load_at (pre := le32 (BitVec.ofNat 32 start) ++ le32 (BitVec.ofNat 32 (start + image.length - 1)))
      (post := le32 (BitVec.ofNat 32 version)) (by rw [hram]; rfl)
  have himg : ∀ flash : Nat → Byte, Holds flash start image → bytesAt flash start image.length = image := by
    intro flash hh
    rw [bytesAt_shift (m' := fun i => image.getD i 0#8) (b := 0) (fun i hi => by rw [hh i hi, Nat.zero_add])]
    exact bytesAt_getD image
  obtain ⟨s5, e5⟩ := descriptor_answered L (I := I) u4 hf hodd (descriptor_length image start version) hram
    (by
      intro flash hx
      rw [checkApplication_iff L]
      have h0 : (loadBlock s4.ram 0).startAddress = BitVec.ofNat 32 start := hw0
      have h4 : (loadBlock s4.ram 0).endAddress = BitVec.ofNat 32 (start + image.length - 1) := hw4
      have h8 : (loadBlock s4.ram 0).crc = crc32Std image := hw8
      rw [h0, h4, h8, hs32, he32]
      refine ⟨hlo, by omega, by omega, ?_⟩
      rw [show start + image.length - 1 + 1 - start = image.length by omega, himg]
      intro x hlt
      rw [hx _ (by omega), w4]
      exact hold x hlt)
  have hn16 : (BitVec.ofNat 32 (descriptor image start version).length).toNat = 16 := by
    rw [descriptor_length]; rfl
  obtain ⟨k1, -, -⟩ := C45_installed_application_starts E L I s4 s5 _ _ (by rw [hn16]; exact Nat.le_refl _) e5
  obtain ⟨-, -, -, -, q2, -⟩ := recv_updateDescriptor L _ _ e5
  refine ⟨s5, allOk_append e4 (allOk_one e5), fun x hx => ?_, k1.trans (congrArg some hw0)⟩
  have e : s5.hw.flash (start + x) = s4.hw.flash (start + x) := q2 _ (by omega)
  rw [e, w4]
  exact hold x hx

/-- The commands of a full update, executed once each. -/
theorem full_ok (E : Env) (L : Layout E) (I : Info) (hw : Hw) (ram : Nat → Byte)
    (ms : List (List Byte)) (hm : ∀ m ∈ ms, Telegram m) (s : State) (rs : List Resp)
    (h : run E I (init E hw ram) ms = some (s, rs)) (blockSize : Nat)
    (hB : 0 < blockSize) (hB' : blockSize ≤ 1265) (hB'' : blockSize % 256 = 0)
    (uid image : List Byte) (huid : UnlocksWith (bytesAt E.uid 0 12) (msgUnlock uid))
    (hodd : E.imageEnd % 256 ≠ 1) (hf : ∀ k, E.fault k = none)
    (start version : Nat) (hlen : 2 ≤ image.length) (hal : start % 256 = 0) (hlo : appFirst E ≤ start)
    (hfit : start + image.length ≤ E.top) (eraseAll : Bool) :
    ∃ s', AllOk E I s (fullCommands blockSize uid image start version eraseAll) s' ∧
      Holds s'.hw.flash start image ∧
      startup E s'.hw.flash false false = some (BitVec.ofNat 32 start) := by
  have hsz := L.size
  have hsec := L.sectors
  have hge := appFirst_ge E
  obtain ⟨buf0, -, hi0⟩ := run_buf L ms hm .start (init_inv L hw ram) h
  obtain ⟨s1, e1, u1, -⟩ := C38_right_id_unlocks E I s _ huid hf
  have ht1 : Telegram (msgUnlock uid) := by
    have := huid.2.1
    unfold Telegram
    omega
  obtain ⟨buf1, -, hi1⟩ := bufInv_step L hi0 ht1 e1
  have hs32 : (BitVec.ofNat 32 start).toNat = start := by rw [BitVec.toNat_ofNat]; omega
  have he32 : (BitVec.ofNat 32 (start + image.length - 1)).toNat = start + image.length - 1 := by
    rw [BitVec.toNat_ofNat]; omega
  obtain ⟨s2, e2, u2, i2, b2⟩ : ∃ s2, receive E I s1 (if eraseAll then msgEraseAll else
      msgEraseRange (BitVec.ofNat 32 start) (BitVec.ofNat 32 (start + image.length - 1))) = some (s2, ok) ∧
      s2.deviceLocked = DEVICE_UNLOCKED ∧ BufInv E ram s2 [] ∧
      ∀ x, x < cap image.length → s2.hw.flash (start + x) = 0xFF#8 := by
    cases eraseAll with
    | true =>
      obtain ⟨s2, r2, q1, -, q2, q3⟩ := C42_erase_all E L I s1 u1
      rw [q3 hf] at q1 q2
      have hq : receive E I s1 msgEraseAll = some (resetUPDProtocol { s1 with hw := (eraseFullFlash E s1.hw).2 },
          status (eraseFullFlash E s1.hw).1) := by
        rw [msgEraseAll, receive_unlocked (by decide) u1 (by decide) (by decide) (by decide)]
        rfl
      have hs2 : s2 = resetUPDProtocol { s1 with hw := (eraseFullFlash E s1.hw).2 } := by
        rw [q1] at hq
        exact (Prod.mk.inj (Option.some.inj hq)).1
      refine ⟨s2, q1, by rw [hs2]; exact u1, by rw [hs2]; exact hi1.cleared rfl rfl hi1.decomp, fun x hx => ?_⟩
      exact q2 rfl _ (by omega) (by unfold cap at hx; omega)
    | false =>
      have hv : EraseRequestValid E (BitVec.ofNat 32 start) (BitVec.ofNat 32 (start + image.length - 1)) :=
        ⟨by rw [hs32]; exact hal, by rw [hs32]; exact hlo, by rw [hs32, he32]; omega, by rw [he32]; omega⟩
      have hE := erase_valid_spec L s1.hw hv
      have hok := hE.live hf
      have q1 := receive_erase (E := E) (I := I) u1 (BitVec.ofNat 32 start) (BitVec.ofNat 32 (start + image.length - 1))
      rw [hok] at q1
      refine ⟨_, q1, u1, hi1.cleared rfl rfl hi1.decomp, fun x hx => ?_⟩
      exact hE.done hok _ (by rw [hs32]; omega) (by rw [he32]; unfold cap at hx; omega)
  obtain ⟨s3, e3, i3, u3, hold⟩ := blocks_ok L (I := I) hf hB hB' hB'' hal hlo hfit image.length [] image
    s2 (Nat.le_refl _) rfl (.inl rfl) i2 u2 (fun x hx => absurd hx (by simp)) (fun _ x _ hx => b2 x hx)
  obtain ⟨s5, e5, e6, e7⟩ := descriptor_ok L (I := I) (version := version) i3 u3 hf hodd hlen hlo hfit hold
  refine ⟨s5, ?_, e6, e7⟩
  exact allOk_append (allOk_append (allOk_cons e1 (allOk_one e2)) e3) e5

theorem unlock_decomp {E : Env} {I : Info} {s s1 : State} {uid : List Byte} (hl : uid.length < 255)
    (h : receive E I s (msgUnlock uid) = some (s1, ok)) : s1.decomp = s.decomp := by
  rcases receive_cons (c := 0xbf#8) (d := uid) hl h with ⟨e, h1, -⟩ | ⟨-, -, -, -, hd⟩
  · exact congrArg (fun r => r.1.decomp) h1
  · have : dispatch E I s 0xbf#8 (fun i => uid.getD i 0#8) uid.length
        = some (updUnlockDevice E s (fun i => uid.getD i 0#8) uid.length) := rfl
    rw [this] at hd
    have hd := Option.some.inj hd
    unfold updUnlockDevice at hd
    split at hd
    · exact congrArg (fun r => r.1.decomp) hd.symm
    dsimp only at hd
    split at hd
    · exact congrArg (fun r => r.1.decomp) hd.symm
    split at hd
    · exact congrArg (fun r => r.1.decomp) hd.symm
    · exact congrArg (fun r => r.1.decomp) hd.symm

/-- Decompressing and programming pages leave the download buffer empty. -/
theorem empty_stays {E : Env} (L : Layout E) {I : Info} {ram0 : Nat → Byte} : ∀ {ms : List (List Byte)} {s s' : State},
    (∀ m ∈ ms, Telegram m ∧ (m.head? = some 0xec#8 ∨ m.head? = some 0xeb#8)) → BufInv E ram0 s [] →
    AllOk E I s ms s' → BufInv E ram0 s' []
  | [], s, s', _, hi, h => by
    obtain ⟨rfl, -⟩ := Prod.mk.inj (Option.some.inj h)
    exact hi
  | m :: ms, s, s', hm, hi, h => by
    obtain ⟨s1, e1, e2⟩ := allOk_inv h
    obtain ⟨buf, hb, hi1⟩ := bufInv_step L hi (hm m List.mem_cons_self).1 e1
    have : buf = [] := by
      rcases hb with hb | ⟨hb, -, -⟩
      · rw [hb]
        unfold bufStep
        cases m with
        | nil => rfl
        | cons c d =>
          rcases (hm _ List.mem_cons_self).2 with hc | hc
          · obtain rfl : c = 0xec#8 := Option.some.inj hc
            rfl
          · obtain rfl : c = 0xeb#8 := Option.some.inj hc
            show (if executed ok = true then [] else []) = []
            split <;> rfl
      · rcases (hm _ List.mem_cons_self).2 with hc | hc <;> rw [hc] at hb <;> exact absurd hb (by decide)
    rw [this] at hi1
    exact empty_stays L (fun x hx => hm x (List.mem_cons_of_mem _ hx)) hi1 e2

/-- The commands of a differential update, executed once each. -/
theorem diff_ok (E : Env) (L : Layout E) (I : Info) (hw : Hw) (ram : Nat → Byte)
    (ms : List (List Byte)) (hm : ∀ m ∈ ms, Telegram m) (s : State) (rs : List Resp)
    (h : run E I (init E hw ram) ms = some (s, rs))
    (hD : E.decompressorBuilt = true) (hf : ∀ k, E.fault k = none) (hodd : E.imageEnd % 256 ≠ 1)
    (hfresh : s.decomp = Decomp.init E hw.flash)
    (A : U32) (hA : A = s.decomp.startAddrOfFlash) (uid old new : List Byte) (version : Nat)
    (huid : UnlocksWith (bytesAt E.uid 0 12) (msgUnlock uid))
    (hold : Holds s.hw.flash A.toNat (old.take new.length))
    (hzero : ∀ x, old.length ≤ x → x < new.length → s.hw.flash (A.toNat + x) = 0#8)
    (hlen : 2 ≤ new.length) (hin : InsideApplication E A new.length) :
    ∃ s', AllOk E I s (diffCommands uid old new A.toNat version) s' ∧
      Holds s'.hw.flash A.toNat new ∧ startup E s'.hw.flash false false = some A := by
  obtain ⟨s1, e1, u1, f1⟩ := C38_right_id_unlocks E I s _ huid hf
  have hl : uid.length = 12 := by
    have := huid.2.1
    unfold msgUnlock at this
    rw [List.length_cons] at this
    omega
  have ht1 : Telegram (msgUnlock uid) := by
    have := huid.2.1
    unfold Telegram
    omega
  have hd1 := unlock_decomp (by omega) e1
  have h1 : run E I (init E hw ram) (ms ++ [msgUnlock uid]) = some (s1, rs ++ [ok]) := by
    rw [run_append ms h]
    have := allOk_one e1
    unfold AllOk at this
    rw [this]
    rfl
  obtain ⟨s2, e2, k, k1, k2, r2⟩ := diff_device E L I hw ram (ms ++ [msgUnlock uid])
    (fun m hm' => by
      rcases List.mem_append.mp hm' with hm' | hm'
      · exact hm m hm'
      · rw [List.mem_singleton.mp hm']; exact ht1) s1 _ h1 u1 hD hf (hd1.trans hfresh) A (by rw [hd1]; exact hA)
    old new (by rw [f1]; exact hold) (by rw [f1]; exact hzero) hin
  -- the download buffer
  obtain ⟨buf0, -, hi0⟩ := run_buf L ms hm .start (init_inv L hw ram) h
  obtain ⟨buf1, hb1, hi1⟩ := bufInv_step L hi0 ht1 e1
  have hb : buf1 = [] := by
    rcases hb1 with hb | ⟨hb, -, -⟩
    · rw [hb]; rfl
    · exact absurd (show some 0xbf#8 = some 0xee#8 from hb) (by decide)
  rw [hb] at hi1
  have hi2 := empty_stays L (ms := doDifferentialFlash old new) (s' := s2) (fun m hm' => by
    obtain ⟨q, -, hq⟩ := List.mem_flatMap.mp hm'
    unfold sendCompressedPage at hq
    rcases List.mem_append.mp hq with hq | hq
    · obtain ⟨t, ht, rfl⟩ := List.mem_map.mp hq
      have := telegrams_size _ _ t ht
      refine ⟨?_, .inl rfl⟩
      show (_ :: t).length ≤ 255
      rw [List.length_cons]
      omega
    · rw [List.mem_singleton.mp hq]
      refine ⟨?_, .inr rfl⟩
      show (5 : Nat) ≤ 255
      omega) hi1 e2
  have hnew : Holds s2.hw.flash A.toNat new := by
    intro x hx
    rw [r2.flash x hx]
    unfold app
    rw [if_pos (by omega)]
  obtain ⟨s3, e3, e4, e5⟩ := descriptor_ok L (I := I) (version := version) hi2 r2.unlocked hf hodd hlen hin.2.1
    (by have := hin.2.2; omega) hnew
  refine ⟨s3, allOk_cons e1 (allOk_append e2 e3), e4, ?_⟩
  rw [e5, BitVec.ofNat_toNat, BitVec.setWidth_eq]

/-! ## The commands are those of the tool -/

theorem doFlash_commands {E : Env} {I : Info} {data : List Byte} {s' : State} :
    ∀ (n fuel i : Nat) (s : State) (pos : Nat), data.length - i ≤ n → data.length - i < fuel →
      AllOk E I s ((telegrams n (data.drop i)).map msgSendData) s' →
      ∃ pos', doFlash E I allAnswered data fuel i ⟨s, pos⟩ = some (⟨s', pos'⟩, some ()) := by
  intro n
  induction n with
  | zero =>
    intro fuel i s pos h1 h2 h
    obtain ⟨rfl, -⟩ := Prod.mk.inj (Option.some.inj h)
    cases fuel with
    | zero => omega
    | succ fuel =>
      unfold doFlash
      rw [if_neg (by omega)]
      exact ⟨pos, rfl⟩
  | succ n ih =>
    intro fuel i s pos h1 h2 h
    cases fuel with
    | zero => omega
    | succ fuel =>
      unfold telegrams at h
      unfold doFlash
      by_cases hlt : i < data.length
      · have hne : ¬ (data.drop i).isEmpty = true := by
          rw [List.isEmpty_iff]
          intro h0
          have := congrArg List.length h0
          rw [List.length_drop, List.length_nil] at this
          omega
        rw [if_neg hne, List.map_cons] at h
        obtain ⟨s1, e1, e2⟩ := allOk_inv h
        rw [if_pos hlt]
        unfold maxRetry
        dsimp only
        rw [send_answered (c := ⟨s, pos⟩) e1]
        have hl : ((data.drop i).take 13).length = min 13 (data.length - i) := by
          rw [List.length_take, List.length_drop]
        have hd : (data.drop i).drop 13 = data.drop (i + ((data.drop i).take 13).length) := by
          rw [List.drop_drop, hl]
          by_cases h13 : 13 ≤ data.length - i
          · rw [Nat.min_eq_left h13]
          · rw [List.drop_of_length_le (by omega), List.drop_of_length_le (by omega)]
        rw [hd] at e2
        exact ih fuel _ s1 (pos + 1) (by omega) (by omega) e2
      · have he : (data.drop i).isEmpty = true := by
          rw [List.isEmpty_iff]
          exact List.drop_of_length_le (by omega)
        rw [if_pos he] at h
        obtain ⟨rfl, -⟩ := Prod.mk.inj (Option.some.inj h)
        rw [if_neg hlt]
        exact ⟨pos, rfl⟩

theorem data_commands {E : Env} {I : Info} {data : List Byte} {s s' : State} {fuel pos : Nat}
    (hf : data.length < fuel) (h : AllOk E I s (dataCommands data) s') :
    ∃ pos', doFlash E I allAnswered data fuel 0 ⟨s, pos⟩ = some (⟨s', pos'⟩, some ()) :=
  doFlash_commands data.length fuel 0 s pos (by omega) (by omega) (by rw [List.drop_zero]; exact h)

theorem loop_commands {E : Env} {I : Info} {B ff : Nat} (hB : 0 < B) (hff : B < ff) {s' : State} :
    ∀ (n fuel : Nat) (rest buffer : List Byte) (addr : Nat) (s : State) (pos : Nat), rest.length ≤ n →
      rest.length < fuel → AllOk E I s (blockCommands B n rest addr) s' →
      ∃ pos', fullLoop E I allAnswered ff B fuel rest buffer false addr ⟨s, pos⟩ = some (⟨s', pos'⟩, some ()) := by
  intro n
  induction n with
  | zero =>
    intro fuel rest buffer addr s pos h1 h2 h
    obtain ⟨rfl, -⟩ := Prod.mk.inj (Option.some.inj h)
    have : rest = [] := List.eq_nil_of_length_eq_zero (by omega)
    subst this
    cases fuel with
    | zero => omega
    | succ fuel => exact ⟨pos, rfl⟩
  | succ n ih =>
    intro fuel rest buffer addr s pos h1 h2 h
    cases fuel with
    | zero => omega
    | succ fuel =>
      unfold blockCommands at h
      unfold fullLoop
      cases hr : rest.isEmpty with
      | true =>
        rw [hr, if_pos rfl] at h
        obtain ⟨rfl, -⟩ := Prod.mk.inj (Option.some.inj h)
        rw [if_pos rfl]
        exact ⟨pos, rfl⟩
      | false =>
        rw [hr, if_neg (by decide)] at h
        rw [if_neg (by decide)]
        dsimp only at h ⊢
        rw [if_neg (by decide), if_neg (by decide)]
        obtain ⟨s2, g1, g2⟩ := allOk_split h
        obtain ⟨s1, g3, g4⟩ := allOk_split g1
        obtain ⟨s2', g5, g6⟩ := allOk_inv g4
        obtain ⟨rfl, -⟩ := Prod.mk.inj (Option.some.inj g6)
        have hpos : 0 < rest.length := by
          cases rest with
          | nil => cases hr
          | cons => exact Nat.succ_pos _
        obtain ⟨pos1, q1⟩ := data_commands (fuel := ff) (pos := pos)
          (by rw [List.length_take]; omega) g3
        rw [q1]
        unfold maxRetry
        show ∃ pos', andThen (sendWithRetry E I allAnswered _ (2 + 1) ⟨s1, pos1⟩ false) _ = _
        rw [send_answered (c := ⟨s1, pos1⟩) g5]
        exact ih fuel (rest.drop B) (rest.take B) _ s2' (pos1 + 1) (by rw [List.length_drop]; omega)
          (by rw [List.length_drop]; omega) g2

/-- **C108.** `fullCommands` is what the tool's full mode sends: if they are all answered with success, the tool
ends with success and leaves the device in the same state. -/
theorem C108_tool_commands (E : Env) (I : Info) (s s' : State) (pos fuel flashFuel blockSize : Nat)
    (uid image : List Byte) (start version : Nat) (eraseAll : Bool) (hB : 0 < blockSize)
    (hfuel : image.length < fuel) (hff : blockSize < flashFuel) (hff' : 16 < flashFuel)
    (h : run E I s (fullCommands blockSize uid image start version eraseAll)
      = some (s', (fullCommands blockSize uid image start version eraseAll).map fun _ => ok)) :
    ∃ pos', fullUpdate E I allAnswered fuel flashFuel blockSize uid image start version eraseAll ⟨s, pos⟩
      = some (⟨s', pos'⟩, some ()) := by
  have h : AllOk E I s (fullCommands blockSize uid image start version eraseAll) s' := h
  unfold fullCommands at h
  unfold fullUpdate programBootDescriptor
  have hd := descriptor_length image start version
  generalize descriptor image start version = d at *
  generalize (if eraseAll = true then msgEraseAll else msgEraseRange (BitVec.ofNat 32 start)
    (BitVec.ofNat 32 (start + image.length - 1))) = er at *
  obtain ⟨s3, h, h3⟩ := allOk_split h
  obtain ⟨s2, h, h2⟩ := allOk_split h
  obtain ⟨s1, g1, h⟩ := allOk_inv h
  obtain ⟨s2', g2, h⟩ := allOk_inv h
  obtain rfl := allOk_nil h
  obtain ⟨s4, h5, h4⟩ := allOk_split h3
  obtain ⟨s5, g5, h⟩ := allOk_inv h4
  obtain rfl := allOk_nil h
  obtain ⟨p3, g3⟩ := loop_commands (I := I) (E := E) hB hff image.length fuel image [] start s2' (pos + 1 + 1)
    (Nat.le_refl _) hfuel h2
  obtain ⟨p4, g4⟩ := data_commands (data := d) (fuel := flashFuel) (pos := p3) (by omega) h5
  refine ⟨p4 + 1, ?_⟩
  have a1 := request_answered (c := ⟨s, pos⟩) g1
  have a2 := request_answered (c := ⟨s1, pos + 1⟩) g2
  have a5 := request_answered (c := ⟨s4, p4⟩) g5
  rw [a1]
  unfold andThen
  dsimp only
  rw [a2]
  dsimp only
  rw [g3]
  dsimp only
  rw [g4]
  exact a5

/-! ## Over the bus -/

/-- The client with address `p` transmits the update commands `cmds` to the device `d`, as numbered data
telegrams, and a request for the statistics behind them. -/
structure Transmits (p d : Word) (req : Nat → Buf) (cmds : List (List Byte)) : Prop where
  requests : Requests p d req
  messages : ∀ i, IsUpdateMessage (req i) ∧ 9 ≤ telegramSize (req i) + 1
  commands : ∀ i (h : i < cmds.length), message (req i) (telegramSize (req i) + 1) = cmds[i]
  afterwards : message (req cmds.length) (telegramSize (req cmds.length) + 1) = [0xdf#8]

/-- The client's request `c` for a connection reaches a bootloader that has none, and whose updater is in
state `u`. -/
structure Connects (E : Env) (I : Info) (p : Word) (s : TL4.State BootDev) (c : Buf) (u : State) : Prop where
  reachable : Reachable (updateApp E I) s
  closed : s.phase = .closed
  free : s.tx = .free
  addressed : TL4.Spec.UnicastTo s.ownAddr c
  connect : TL4.Spec.isConnect c = true
  src : TL4.Spec.src c = p
  updater : s.app.st = some u

/-- The bus right after this. -/
def connected (E : Env) (I : Info) (s : TL4.State BootDev) (c : Buf) (len : Nat) : Sys BootDev :=
  { dev := (TL4.step (updateApp E I) s (.rx c len)).1, current := 0, toDevice := [], toClient := [], log := [] }

theorem statistics_leaves (E : Env) (I : Info) (s : State) :
    ∃ r, run E I s [[0xdf#8]] = some (s, r) := by
  have hm : Telegram [0xdf#8] := by decide
  obtain ⟨r, h⟩ : ∃ r, receive E I s [0xdf#8] = some (s, r) := by
    unfold receive handle
    rw [show (BitVec.ofNat 32 [0xdf#8].length).toNat = 1 from rfl, if_neg (by decide)]
    dsimp only
    rw [show [0xdf#8].getD 0 0#8 = 0xdf#8 from rfl, if_neg (by decide), if_neg (by decide)]
    by_cases h2 : s.deviceLocked ≠ DEVICE_UNLOCKED ∧ (code2UPDCommand 0xdf#8).1 ≠ 0xbf#8 ∧
        (code2UPDCommand 0xdf#8).1 ≠ 0xbe#8 ∧ (code2UPDCommand 0xdf#8).1 ≠ 0xbc#8
    · rw [if_pos h2]
      exact ⟨_, rfl⟩
    · rw [if_neg h2]
      exact ⟨_, rfl⟩
  refine ⟨[r], ?_⟩
  unfold run
  unfold receive at h
  rw [h]
  rfl

theorem range_commands {req : Nat → Buf} {cmds : List (List Byte)}
    (h : ∀ i (h : i < cmds.length), message (req i) (telegramSize (req i) + 1) = cmds[i]) :
    ((List.range cmds.length).map fun i => message (req i) (telegramSize (req i) + 1)) = cmds := by
  apply List.ext_getElem
  · rw [List.length_map, List.length_range]
  · intro i h1 h2
    rw [List.getElem_map, List.getElem_range]
    exact h i h2

theorem session_done (E : Env) (I : Info) (p d : Word) (req : Nat → Buf) (cmds : List (List Byte))
    (ht : Transmits p d req cmds) (s : TL4.State BootDev) (c : Buf) (u : State) (hc : Connects E I p s c u)
    (len : Nat) (u' : State) (hok : AllOk E I u cmds u') (y : Sys BootDev)
    (hy : Session (updateApp E I) p req (connected E I s c len) y) (hdone : y.current = cmds.length) :
    y.dev.app.st = some u' := by
  obtain ⟨r, h1, h2, h3⟩ := C107_session E I p d req ht.requests s hc.reachable hc.closed hc.free c len hc.addressed
    hc.connect hc.src u hc.updater ht.messages y hy
  rw [h3]
  have hr : r = cmds.length ∨ r = cmds.length + 1 := by omega
  rcases hr with rfl | rfl
  · rw [range_commands ht.commands, hok]
    rfl
  · obtain ⟨q, hq⟩ := statistics_leaves E I u'
    rw [List.range_succ, List.map_append, range_commands ht.commands, List.map_singleton, ht.afterwards,
      run_append cmds hok, hq]
    rfl

/-- **C108.** A full update over a bus that loses and duplicates telegrams. The client connects to the
bootloader, which may be in any state an earlier history `ms` of update commands led to, and transmits the
commands of the tool's full mode one after the other, each until it is acknowledged. At every moment when all of
them are acknowledged, the flash holds the image and the image is started at the next reset. -/
theorem C108_full_update_partial (E : Env) (L : Layout E) (I : Info) (hw : Hw) (ram : Nat → Byte)
    (ms : List (List Byte)) (hm : ∀ m ∈ ms, Telegram m) (u : State) (rs : List Resp)
    (h : run E I (init E hw ram) ms = some (u, rs)) (blockSize : Nat)
    (hB : 0 < blockSize) (hB' : blockSize ≤ 1265) (hB'' : blockSize % 256 = 0)
    (uid image : List Byte) (huid : UnlocksWith (bytesAt E.uid 0 12) (msgUnlock uid))
    (hodd : E.imageEnd % 256 ≠ 1) (hf : ∀ k, E.fault k = none)
    (start version : Nat) (hlen : 2 ≤ image.length) (hal : start % 256 = 0) (hlo : appFirst E ≤ start)
    (hfit : start + image.length ≤ E.top) (eraseAll : Bool)
    (p d : Word) (req : Nat → Buf) (ht : Transmits p d req (fullCommands blockSize uid image start version eraseAll))
    (s : TL4.State BootDev) (c : Buf) (len : Nat) (hc : Connects E I p s c u) (y : Sys BootDev)
    (hy : Session (updateApp E I) p req (connected E I s c len) y)
    (hdone : y.current = (fullCommands blockSize uid image start version eraseAll).length) :
    ∃ v, y.dev.app.st = some v ∧ Holds v.hw.flash start image ∧
      startup E v.hw.flash false false = some (BitVec.ofNat 32 start) := by
  obtain ⟨u', e1, e2, e3⟩ := full_ok E L I hw ram ms hm u rs h blockSize hB hB' hB'' uid image huid hodd hf start
    version hlen hal hlo hfit eraseAll
  exact ⟨u', session_done E I p d req _ ht s c u hc len u' e1 y hy hdone, e2, e3⟩

/-- **C108.** The same for a differential update from `old` to `new`, under the conditions of C80: the device
has not started a differential update since power-up, its application starts with `old`, followed by zeros as
far as `new` is longer. -/
theorem C108_differential_update_partial (E : Env) (L : Layout E) (I : Info) (hw : Hw) (ram : Nat → Byte)
    (ms : List (List Byte)) (hm : ∀ m ∈ ms, Telegram m) (u : State) (rs : List Resp)
    (h : run E I (init E hw ram) ms = some (u, rs))
    (hD : E.decompressorBuilt = true) (hf : ∀ k, E.fault k = none) (hodd : E.imageEnd % 256 ≠ 1)
    (hfresh : u.decomp = Decomp.init E hw.flash)
    (A : U32) (hA : A = u.decomp.startAddrOfFlash) (uid old new : List Byte) (version : Nat)
    (huid : UnlocksWith (bytesAt E.uid 0 12) (msgUnlock uid))
    (hold : Holds u.hw.flash A.toNat (old.take new.length))
    (hzero : ∀ x, old.length ≤ x → x < new.length → u.hw.flash (A.toNat + x) = 0#8)
    (hlen : 2 ≤ new.length) (hin : InsideApplication E A new.length)
    (p d : Word) (req : Nat → Buf) (ht : Transmits p d req (diffCommands uid old new A.toNat version))
    (s : TL4.State BootDev) (c : Buf) (len : Nat) (hc : Connects E I p s c u) (y : Sys BootDev)
    (hy : Session (updateApp E I) p req (connected E I s c len) y)
    (hdone : y.current = (diffCommands uid old new A.toNat version).length) :
    ∃ v, y.dev.app.st = some v ∧ Holds v.hw.flash A.toNat new ∧ startup E v.hw.flash false false = some A := by
  obtain ⟨u', e1, e2, e3⟩ := diff_ok E L I hw ram ms hm u rs h hD hf hodd hfresh A hA uid old new version huid hold
    hzero hlen hin
  exact ⟨u', session_done E I p d req _ ht s c u hc len u' e1 y hy hdone, e2, e3⟩

/-! ## The hypotheses are met

A client that transmits given commands, and a session in which all of them are acknowledged: in each round the
client sends its command, the bootloader acknowledges it and sends its answer, and the client acknowledges the
answer. The first command is lost once and duplicated once. -/

def demoReqs (cmds : List (List Byte)) (i : Nat) : Buf :=
  demoTel 0x1101#16 0x1105#16 (0x42#8 ||| ((BitVec.ofNat 4 i).setWidth 8 <<< (2 : Nat))) (cmds.getD i [0xdf#8])

theorem demo_size (t : Byte) (m : List Byte) (h : m.length ≤ 14) :
    telegramSize (demoTel 0x1101#16 0x1105#16 t m) = m.length + 8 := by
  show 7 + ((0x60#8 + BitVec.ofNat 8 (m.length + 1)) &&& 15#8).toNat = m.length + 8
  have : ∀ n, n < 15 → ((0x60#8 + BitVec.ofNat 8 (n + 1)) &&& 15#8).toNat = n + 1 := by decide
  rw [this _ (by omega)]
  omega

theorem demo_message (t : Byte) (m : List Byte) (h : m.length ≤ 14) :
    message (demoTel 0x1101#16 0x1105#16 t m) (telegramSize (demoTel 0x1101#16 0x1105#16 t m) + 1) = m := by
  rw [demo_size t m h]
  unfold message
  apply List.ext_getElem
  · rw [List.length_map, List.length_range]
    omega
  · intro i h1 h2
    rw [List.getElem_map, List.getElem_range]
    rw [Nat.add_comm]
    have e : demoTel 0x1101#16 0x1105#16 t m (i + 8) = m.getD i 0#8 := rfl
    rw [e, List.getD_eq_getElem?_getD, List.getElem?_eq_getElem h2]
    rfl

theorem demo_transmits (cmds : List (List Byte)) (h : ∀ m ∈ cmds, 1 ≤ m.length ∧ m.length ≤ 14) :
    Transmits 0x1101#16 0x1105#16 (demoReqs cmds) cmds := by
  have hl : ∀ i, 1 ≤ (cmds.getD i [0xdf#8]).length ∧ (cmds.getD i [0xdf#8]).length ≤ 14 := by
    intro i
    rw [List.getD_eq_getElem?_getD]
    cases hi : cmds[i]? with
    | none => exact ⟨by decide, by decide⟩
    | some m => exact h m (List.mem_of_getElem? hi)
  have num : ∀ n : BitVec 4, ((0x42#8 ||| (n.setWidth 8 <<< (2 : Nat))).extractLsb' 6 2 == 0b01#2) = true := by
    decide +kernel
  have sq : ∀ n : BitVec 4, TL4.Spec.seqOf (0x42#8 ||| (n.setWidth 8 <<< (2 : Nat))) = n.toNat := by
    decide +kernel
  have sv : ∀ n : BitVec 4, (0x42#8 ||| (n.setWidth 8 <<< (2 : Nat))).extractLsb' 0 2 ++ 0xF8#8 = 0x2F8#10 := by
    decide +kernel
  refine ⟨⟨by decide, fun i => ?_, fun i => ?_, fun i => ?_, fun i => num _, fun i => ?_⟩, fun i => ⟨sv _, ?_⟩,
    fun i hi => ?_, ?_⟩
  · show (0x60#8 + BitVec.ofNat 8 ((cmds.getD i [0xdf#8]).length + 1)).getLsbD 7 = false
    have : ∀ n, n < 15 → (0x60#8 + BitVec.ofNat 8 (n + 1)).getLsbD 7 = false := by decide
    exact this _ (by have := hl i; omega)
  · show (0x1105#16).extractLsb' 8 8 ++ (0x1105#16).extractLsb' 0 8 = (0x1105#16 : BitVec (8 + 8))
    decide
  · show (0x1101#16).extractLsb' 8 8 ++ (0x1101#16).extractLsb' 0 8 = (0x1101#16 : BitVec (8 + 8))
    decide
  · exact (sq _).trans (by simp)
  · unfold demoReqs
    rw [demo_size _ _ (hl i).2]
    have := (hl i).1
    omega
  · unfold demoReqs
    rw [demo_message _ _ (hl i).2, List.getD_eq_getElem?_getD, List.getElem?_eq_getElem hi]
    rfl
  · unfold demoReqs
    rw [demo_message _ _ (hl _).2, List.getD_eq_getElem?_getD, List.getElem?_eq_none (Nat.le_refl _)]
    rfl

def demoAck (i : Nat) : Buf := fun k =>
  [0xB0#8, 0x11#8, 0x01#8, 0x11#8, 0x05#8, 0x60#8,
    0xC2#8 ||| ((BitVec.ofNat 4 i).setWidth 8 <<< (2 : Nat))].getD k 0#8

abbrev demoBus := updateApp demoEnv demoInfo

def demoReceive (y : Sys BootDev) : Sys BootDev :=
  match y.toDevice with
  | [] => y
  | t :: rest => { y with toDevice := rest }.device demoBus 0x1101#16 (.rx t (telegramSize t + 1))

def demoAcked (y : Sys BootDev) : Sys BootDev :=
  match y.toClient with
  | [] => y
  | n :: rest => { y with toClient := rest
                          current := if n = y.current % 16 then y.current + 1 else y.current }

def demoSend (cmds : List (List Byte)) (y : Sys BootDev) : Sys BootDev :=
  { y with toDevice := y.toDevice ++ [demoReqs cmds y.current] }

def demoDevice (op : TL4.Op) (y : Sys BootDev) : Sys BootDev := y.device demoBus 0x1101#16 op

def demoRound (cmds : List (List Byte)) (y : Sys BootDev) : Sys BootDev :=
  demoAcked (demoDevice (.rx (demoAck y.current) 8) (demoDevice (.txDone true) (demoDevice .loop
    (demoDevice (.txDone true) (demoReceive (demoSend cmds y))))))

def demoRounds (cmds : List (List Byte)) : Nat → Sys BootDev → Sys BootDev
  | 0, y => y
  | n + 1, y => demoRounds cmds n (demoRound cmds y)

theorem demoRound_session {cmds : List (List Byte)} {y0 y : Sys BootDev}
    (h : Session demoBus 0x1101#16 (demoReqs cmds) y0 y) :
    Session demoBus 0x1101#16 (demoReqs cmds) y0 (demoRound cmds y) := by
  have h1 : Session demoBus 0x1101#16 (demoReqs cmds) y0 (demoSend cmds y) :=
    .environment _ _ h (.clientSend y) rfl rfl
  have h2 : Session demoBus 0x1101#16 (demoReqs cmds) y0 (demoReceive (demoSend cmds y)) := by
    generalize demoSend cmds y = y1 at *
    unfold demoReceive
    split
    · exact h1
    · rename_i t rest ht
      exact .receive _ _ _ h1 ht
  have dev : ∀ {z : Sys BootDev} {op : TL4.Op}, Session demoBus 0x1101#16 (demoReqs cmds) y0 z →
      op = .loop ∨ op = .txDone true → Session demoBus 0x1101#16 (demoReqs cmds) y0 (demoDevice op z) := by
    intro z op hz hop
    rcases hop with rfl | rfl
    · exact .other _ _ hz trivial (fun t l ht => by cases ht)
    · exact .other _ _ hz trivial (fun t l ht => by cases ht)
  have ctl : ∀ n : BitVec 4, TL4.Spec.isControl (fun k => [0xB0#8, 0x11#8, 0x01#8, 0x11#8, 0x05#8, 0x60#8,
      0xC2#8 ||| (n.setWidth 8 <<< (2 : Nat))].getD k 0#8) = true := by decide +kernel
  have con : ∀ n : BitVec 4, TL4.Spec.isConnect (fun k => [0xB0#8, 0x11#8, 0x01#8, 0x11#8, 0x05#8, 0x60#8,
      0xC2#8 ||| (n.setWidth 8 <<< (2 : Nat))].getD k 0#8) = false := by decide +kernel
  have cl : ∀ n : BitVec 4, TL4.Spec.isConnectionless (fun k => [0xB0#8, 0x11#8, 0x01#8, 0x11#8, 0x05#8, 0x60#8,
      0xC2#8 ||| (n.setWidth 8 <<< (2 : Nat))].getD k 0#8) = false := by decide +kernel
  have h4 : ∀ {z : Sys BootDev}, Session demoBus 0x1101#16 (demoReqs cmds) y0 z →
      Session demoBus 0x1101#16 (demoReqs cmds) y0 (demoDevice (.rx (demoAck y.current) 8) z) := by
    intro z hz
    refine .other _ _ hz (fun _ => ⟨fun hc => ?_, fun _ => con _⟩) (fun t l ht hu => ?_)
    · have := ctl (BitVec.ofNat 4 y.current)
      have hc : TL4.Spec.isControl (demoAck y.current) = false := hc
      unfold demoAck at hc
      rw [this] at hc
      cases hc
    · injection ht with ht _
      rw [← ht]
      exact cl _
  have h5 : ∀ {z : Sys BootDev}, Session demoBus 0x1101#16 (demoReqs cmds) y0 z →
      Session demoBus 0x1101#16 (demoReqs cmds) y0 (demoAcked z) := by
    intro z hz
    unfold demoAcked
    split
    · exact hz
    · rename_i n rest hn
      exact .environment _ _ hz (.clientAck z n rest hn) rfl rfl
  exact h5 (h4 (dev (dev (dev h2 (.inr rfl)) (.inl rfl)) (.inr rfl)))

theorem demoRounds_session {cmds : List (List Byte)} {y0 : Sys BootDev} : ∀ (n : Nat) {y : Sys BootDev},
    Session demoBus 0x1101#16 (demoReqs cmds) y0 y →
    Session demoBus 0x1101#16 (demoReqs cmds) y0 (demoRounds cmds n y)
  | 0, _, h => h
  | n + 1, _, h => demoRounds_session n (demoRound_session h)

theorem demo_connects : Connects demoEnv demoInfo 0x1101#16 demoDev demoConnect demoStart :=
  ⟨⟨_, _, _, [], rfl⟩, rfl, rfl, ⟨by decide, by decide, by decide⟩, by decide, by decide, rfl⟩

/-- The full update of the example of C81: eight commands. -/
def demoFull : List (List Byte) := fullCommands 256 demoUid demoImage 0x1000 0x1000 false

set_option maxRecDepth 100000 in
example : demoFull.length = 8 ∧ (∀ m ∈ demoFull, 1 ≤ m.length ∧ m.length ≤ 14) := by decide +kernel

/-- The first transmission was lost, the second one duplicated. -/
def demoFirst : Sys BootDev :=
  { connected demoEnv demoInfo demoDev demoConnect 8 with toDevice := [demoReqs demoFull 0, demoReqs demoFull 0] }

theorem demoFirst_session : Session demoBus 0x1101#16 (demoReqs demoFull)
    (connected demoEnv demoInfo demoDev demoConnect 8) demoFirst := by
  let y0 := connected demoEnv demoInfo demoDev demoConnect 8
  let y1 : Sys BootDev := { y0 with toDevice := [demoReqs demoFull 0] }
  have r1 : Session demoBus 0x1101#16 (demoReqs demoFull) y0 y1 :=
    .environment _ _ .start (.clientSend _) rfl rfl
  have r2 : Session demoBus 0x1101#16 (demoReqs demoFull) y0 y0 :=
    .environment _ _ r1 (.lose y1 [] (demoReqs demoFull 0) [] rfl) rfl rfl
  have r3 : Session demoBus 0x1101#16 (demoReqs demoFull) y0 y1 :=
    .environment _ _ r2 (.clientSend y0) rfl rfl
  exact .environment _ _ r3 (.dup y1 [] (demoReqs demoFull 0) [] rfl) rfl rfl

set_option maxRecDepth 100000 in
/-- 22 rounds later (the old telegrams stay ahead of the new ones) all eight commands are acknowledged, and the theorem says what the flash holds. -/
example : ∃ v, (demoRounds demoFull 22 demoFirst).dev.app.st = some v ∧ Holds v.hw.flash 0x1000 demoImage ∧
    startup demoEnv v.hw.flash false false = some 0x1000#32 :=
  C108_full_update_partial demoEnv demoLayout demoInfo _ _ [] (by simp) demoStart [] rfl 256 (by decide)
    (by decide) (by decide) demoUid demoImage (by decide) (by decide) (fun _ => rfl) 0x1000 0x1000 (by decide)
    (by decide) (by decide) (by decide) false 0x1101#16 0x1105#16 _ (demo_transmits _ (by decide +kernel)) demoDev
    demoConnect 8 demo_connects _ (demoRounds_session 22 demoFirst_session) (by decide +kernel)

/-- The same for the differential update of C80: six commands. -/
def demoDiff : List (List Byte) :=
  msgUnlock demoUid :: ([msgDecompress [3#8, 0x77#8, 0x78#8, 0x79#8, 0x9D#8, 0#8, 0#8, 3#8],
      msgProgramDecompressed (crc32Std demoNew)] ++
    (dataCommands (descriptor demoNew 0x1000 0x1000) ++
      [msgUpdateDescriptor (BitVec.ofNat 32 (descriptor demoNew 0x1000 0x1000).length)
        (crc32Std (descriptor demoNew 0x1000 0x1000))]))

theorem demoDiff_eq : diffCommands demoUid demoOld demoNew 0x1000 0x1000 = demoDiff := by
  unfold diffCommands
  rw [demo_telegrams]
  rfl

def demoAppDev : TL4.State BootDev := TL4.init 0x1105#16 0 ⟨some demoApp, false⟩

set_option maxRecDepth 100000 in
example : ∃ v, (demoRounds demoDiff 6 (connected demoEnv demoInfo demoAppDev demoConnect 8)).dev.app.st = some v ∧
    Holds v.hw.flash 0x1000 demoNew ∧ startup demoEnv v.hw.flash false false = some 0x1000#32 := by
  have hold : Holds demoApp.hw.flash (0x1000#32).toNat (demoOld.take demoNew.length) := by
    intro x hx
    have : ∀ x : Fin 32, demoApp.hw.flash (0x1000 + x.1) = (demoOld.take demoNew.length).getD x.1 0#8 := by
      decide +kernel
    exact this ⟨x, hx⟩
  refine C108_differential_update_partial demoEnv demoLayout demoInfo _ _ [] (by simp) demoApp [] rfl (by decide)
    (fun _ => rfl) (by decide) rfl 0x1000#32 (by decide +kernel) demoUid demoOld demoNew 0x1000 (by decide) hold
    (fun x h1 h2 => absurd h1 (Nat.not_le_of_lt h2)) (by decide) ⟨by decide, by decide, by decide⟩
    0x1101#16 0x1105#16 (demoReqs demoDiff) ?_ demoAppDev demoConnect 8
    ⟨⟨_, _, _, [], rfl⟩, rfl, rfl, ⟨by decide, by decide, by decide⟩, by decide, by decide, rfl⟩ _
    (demoRounds_session 6 .start) ?_
  · show Transmits _ _ _ (diffCommands demoUid demoOld demoNew 0x1000 0x1000)
    rw [demoDiff_eq]
    exact demo_transmits _ (by decide +kernel)
  · show _ = (diffCommands demoUid demoOld demoNew 0x1000 0x1000).length
    rw [demoDiff_eq]
    decide +kernel

end Verif.Boot
