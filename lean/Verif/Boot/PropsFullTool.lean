import Verif.Boot.FullToolLemmas

/-!
# C81: a full update over a connection that loses telegrams
-/

namespace Verif.Boot
open Verif.Iap Spec Tool

/-! ## Sending the blocks -/

theorem getD_append_lt {l m : List Byte} {i : Nat} (h : i < l.length) : (l ++ m).getD i 0#8 = l.getD i 0#8 := by
  simp [List.getD_eq_getElem?_getD, List.getElem?_append_left h]

theorem getD_append_ge {l m : List Byte} {i : Nat} (h : l.length ≤ i) :
    (l ++ m).getD i 0#8 = m.getD (i - l.length) 0#8 := by
  simp [List.getD_eq_getElem?_getD, List.getElem?_append_right h]

theorem mod_add_self' {a B : Nat} (h : a % B = 0) : (a + B) % B = 0 := by
  rw [Nat.add_mod_right, h]

/-- Whole blocks: all of the image but its last block at most. -/
theorem whole_blocks {k n B l : Nat} (hB : 0 < B) (hm : k % B = 0) (hl : l ≤ B) (hn : n = k + l) :
    (n - 1) / B * B ≤ k := by
  obtain ⟨q, rfl⟩ := Nat.dvd_of_mod_eq_zero hm
  subst hn
  have : (B * q + l - 1) / B ≤ q := by
    rw [Nat.div_le_iff_le_mul_add_pred hB]
    omega
  calc (B * q + l - 1) / B * B ≤ q * B := Nat.mul_le_mul_right _ this
    _ = B * q := Nat.mul_comm _ _

theorem fullLoop_rule {E : Env} (L : Layout E) {I : Info} {ch : Channel} {ram0 : Nat → Byte} {ff B start : Nat}
    (hB : 0 < B) (hB' : B < 2 ^ 16) {image : List Byte} (hfit : start + image.length ≤ 2 ^ 32) :
    ∀ (fuel : Nat) (sent rest buffer : List Byte) (again : Bool) (c c' : Link),
      BufInv E ram0 c.dev [] → image = sent ++ ((if again then buffer else []) ++ rest) →
      (again = true → buffer ≠ [] ∧ buffer.length ≤ B ∧ (buffer.length = B ∨ rest = [])) →
      (sent.length % B = 0 ∨ (again = false ∧ rest = [])) → Holds c.dev.hw.flash start sent →
      fullLoop E I ch ff B fuel rest buffer again (start + sent.length) c = some (c', some ()) →
      BufInv E ram0 c'.dev [] ∧
        ∀ x, x < (image.length - 1) / B * B → c'.dev.hw.flash (start + x) = image.getD x 0#8 := by
  intro fuel
  induction fuel with
  | zero => intro sent rest buffer again c c' _ _ _ _ _ h; exact absurd h (by simp [fullLoop])
  | succ fuel ih =>
    intro sent rest buffer again c c' hi him hag hmod hold h
    unfold fullLoop at h
    by_cases hr : rest = []
    · subst hr
      have h : some (c, some ()) = some (c', some ()) := h
      obtain ⟨rfl, -⟩ := Prod.mk.inj (Option.some.inj h)
      refine ⟨hi, fun x hx => ?_⟩
      have hlen : (image.length - 1) / B * B ≤ sent.length := by
        cases again with
        | true =>
          obtain ⟨-, h2, -⟩ := hag rfl
          rcases hmod with hm | hm
          · refine whole_blocks hB hm h2 ?_
            rw [him]; simp
          · exact absurd hm.1 (by decide)
        | false =>
          have : image.length = sent.length := by rw [him]; simp
          rw [this]
          exact Nat.le_trans (Nat.div_mul_le_self _ _) (Nat.sub_le _ _)
      rw [hold x (by omega), him, getD_append_lt (by omega)]
    · have hemp : rest.isEmpty = false := by
        cases rest with
        | nil => exact absurd rfl hr
        | cons => rfl
      rw [hemp, if_neg (by decide)] at h
      dsimp only at h
      have hm0 : sent.length % B = 0 := by
        rcases hmod with hm | ⟨-, hm⟩
        · exact hm
        · exact absurd hm hr
      -- the block and what remains
      generalize htx : (if again = true then buffer else rest.take B) = tx at h
      generalize hrs : (if again = true then rest else rest.drop B) = rest' at h
      have hrl := List.length_pos_iff.mpr hr
      have htx1 : tx ≠ [] ∧ tx.length ≤ B ∧ (tx.length = B ∨ rest' = []) ∧ image = sent ++ (tx ++ rest') := by
        cases again with
        | true =>
          rw [if_pos rfl] at htx hrs him
          subst htx; subst hrs
          obtain ⟨a1, a2, a3⟩ := hag rfl
          exact ⟨a1, a2, a3, him⟩
        | false =>
          rw [if_neg (by decide)] at htx hrs him
          subst htx; subst hrs
          refine ⟨?_, ?_, ?_, ?_⟩
          · intro h0
            have := congrArg List.length h0
            rw [List.length_take, List.length_nil] at this
            omega
          · rw [List.length_take]; omega
          · by_cases hb : B ≤ rest.length
            · left; rw [List.length_take]; omega
            · right; exact List.drop_of_length_le (by omega)
          · rw [List.take_append_drop]; exact him
      obtain ⟨t1, t2, t3, t4⟩ := htx1
      have hpos := List.length_pos_iff.mpr t1
      have hil : image.length = sent.length + (tx.length + rest'.length) := by
        rw [t4, List.length_append, List.length_append]
      have han : (BitVec.ofNat 32 (start + sent.length)).toNat = start + sent.length := by
        rw [BitVec.toNat_ofNat]; omega
      have hnn : (BitVec.ofNat 16 tx.length).toNat = tx.length := by
        rw [BitVec.toNat_ofNat]; omega
      obtain ⟨c1, _, h1, h⟩ := andThen_some h
      obtain ⟨X, x1, x2, x3⟩ := doFlash_rule L tx ff 0 c c1 [] hi h1
      rw [List.nil_append] at x2
      rw [List.drop_zero] at x1
      obtain ⟨c2, rb, h2, h⟩ := andThen_some h
      obtain ⟨r, b⟩ := rb
      obtain ⟨s, ⟨p1, p2⟩, p3, -⟩ := send_rule
        (P := fun s => (BufInv E ram0 s X ∨ BufInv E ram0 s []) ∧
          ∀ x, x < start + sent.length → s.hw.flash x = c1.dev.hw.flash x)
        (by
          rintro s r ⟨p1, p2⟩ hr
          rcases p1 with p1 | p1
          · obtain ⟨-, q1, q2, -⟩ := recv_program L p1 _ _ _ hr
            refine ⟨q1, fun x hx => ?_⟩
            rw [q2 x (by rw [han]; exact hx), p2 x hx]
          · obtain ⟨-, q1, q2, -⟩ := recv_program L p1 _ _ _ hr
            refine ⟨.inr (by rcases q1 with q1 | q1 <;> exact q1), fun x hx => ?_⟩
            rw [q2 x (by rw [han]; exact hx), p2 x hx]) _ _ _ _ _ _ ⟨.inl x2, fun _ _ => rfl⟩ h2
      -- the answer
      obtain ⟨e, he⟩ : ∃ e, r = status e := by
        rcases p1 with p1 | p1 <;> exact (recv_program L p1 _ _ _ p3).1
      have hclear : (r = status 0x4f#8 ∨ r = status 0x50#8 ∨ r = ok) → BufInv E ram0 c2.dev [] := by
        rcases p1 with p1 | p1 <;> exact (recv_program L p1 _ _ _ p3).2.2.2.1
      have hframe : ∀ x, x < start + sent.length → c2.dev.hw.flash x = c.dev.hw.flash x := by
        intro x hx
        have : c2.dev.hw.flash x = s.hw.flash x := by
          rcases p1 with p1 | p1 <;> exact (recv_program L p1 _ _ _ p3).2.2.1 x (by rw [han]; exact hx)
        rw [this, p2 x hx, x3]
      have hold2 : Holds c2.dev.hw.flash start sent := by
        intro x hx
        rw [hframe _ (by omega), hold x hx]
      dsimp only at h
      rw [he, checkResult_status] at h
      by_cases hrep : e = 0x50#8 ∨ e = 0x4f#8
      · rw [if_pos hrep] at h
        refine ih sent rest' tx true c2 c' (hclear ?_) (by rw [if_pos rfl]; exact t4) (fun _ => ⟨t1, t2, t3⟩)
          (.inl hm0) hold2 h
        rcases hrep with rfl | rfl
        · exact .inr (.inl he)
        · exact .inl he
      · rw [if_neg hrep] at h
        by_cases hok : e = 0x7f#8
        · rw [if_pos hok] at h
          subst hok
          have hrok : r = ok := he
          have hdone : ∀ i, i < tx.length → c2.dev.hw.flash (start + sent.length + i) = tx.getD i 0#8 := by
            rcases p1 with p1 | p1
            · obtain ⟨q1, q2⟩ := (recv_program L p1 _ _ _ p3).2.2.2.2 hrok
              rw [hnn] at q1 q2
              rw [han, x1.eq q1] at q2
              exact q2
            · obtain ⟨q1, -⟩ := (recv_program L p1 _ _ _ p3).2.2.2.2 hrok
              rw [hnn] at q1
              exact absurd q1 (by rw [List.length_nil]; omega)
          rw [Nat.add_assoc, ← List.length_append] at h
          refine ih (sent ++ tx) rest' tx false c2 c' (hclear (.inr (.inr hrok)))
            (by rw [if_neg (by decide), List.nil_append, List.append_assoc]; exact t4)
            (fun h => absurd h (by decide)) ?_ ?_ h
          · rcases t3 with t3 | t3
            · left
              rw [List.length_append, t3]
              exact mod_add_self' hm0
            · exact .inr ⟨rfl, t3⟩
          · intro x hx
            rw [List.length_append] at hx
            by_cases hxs : x < sent.length
            · rw [hold2 x hxs, getD_append_lt hxs]
            · rw [getD_append_ge (by omega)]
              have := hdone (x - sent.length) (by omega)
              rw [show start + sent.length + (x - sent.length) = start + x by omega] at this
              exact this
        · rw [if_neg hok] at h
          exact absurd h (by simp)

/-! ## The descriptor -/

theorem descriptor_length (image : List Byte) (a v : Nat) : (descriptor image a v).length = 16 := rfl

/-- The first 16 bytes received determine the descriptor, once its checksum is right. -/
theorem descriptor_received {d X : List Byte} (hd : d.length = 16) (hX : Rep d X)
    (hcrc : crc32Std (X.take 16) = crc32Std d) : X.take 16 = d := by
  have hne : d ≠ [] := by rintro rfl; exact absurd hd (by decide)
  have hdd : d = d.take 13 ++ d.drop 13 := (List.take_append_drop 13 d).symm
  have h13 : (d.take 13).length = 13 := by rw [List.length_take]; omega
  have h3 : (d.drop 13).length = 3 := by rw [List.length_drop]; omega
  have htake : ∀ Y : List Byte, (d.take 13 ++ Y).take 16 = d.take 13 ++ Y.take 3 := by
    intro Y
    rw [List.take_append, h13, List.take_of_length_le (by omega)]
  obtain ⟨Y, rfl, hY | hY⟩ := hX.head hne
  · obtain ⟨Z, rfl, -⟩ := hY.head hne
    rw [htake] at hcrc ⊢
    have h33 : ((d.take 13 ++ Z).take 3).length = 3 := by
      rw [List.length_take, List.length_append]; omega
    by_cases heq : (d.take 13 ++ Z).take 3 = d.drop 13
    · rw [heq]; exact hdd.symm
    · exfalso
      refine Crc.C43_crc32_detects_bursts 0xFFFFFFFF#32 _ d
        ⟨d.take 13, (d.take 13 ++ Z).take 3, d.drop 13, [], by rw [List.append_nil],
          by rw [List.append_nil]; exact hdd, by omega, by omega, heq⟩ ?_
      rw [crc_eq, crc_eq]
      exact hcrc
  · have hne' : d.drop 13 ≠ [] := by intro h0; rw [h0] at h3; exact absurd h3 (by decide)
    obtain ⟨Z, rfl, -⟩ := hY.head hne'
    rw [htake, List.take_of_length_le (l := d.drop 13) (by omega), List.take_append, h3,
      List.take_of_length_le (l := d.drop 13) (by omega)]
    simp

theorem load_at {m : Nat → Byte} {pre post : List Byte} {v : U32} {n : Nat}
    (h : bytesAt m 0 n = pre ++ le32 v ++ post) : load32 m pre.length = v := by
  have hn : n = pre.length + (4 + post.length) := by
    have := congrArg List.length h
    rw [bytesAt_length, List.length_append, List.length_append] at this
    have h4 : (le32 v).length = 4 := rfl
    omega
  have hg : ∀ k, k < 4 → m (pre.length + k) = (le32 v).getD k 0#8 := by
    intro k hk
    have := bytesAt_get (m := m) (a := 0) (n := n) (i := pre.length + k) (by omega)
    rw [h, Nat.zero_add, List.append_assoc, getD_append_ge (by omega), Nat.add_sub_cancel_left,
      getD_append_lt (show k < 4 from hk)] at this
    exact this.symm
  have g0 := hg 0 (by omega)
  rw [Nat.add_zero] at g0
  unfold load32
  rw [hg 3 (by omega), hg 2 (by omega), hg 1 (by omega), g0]
  exact le32_cat v

/-! ## The update -/

theorem request_rule {E : Env} {I : Info} {ch : Channel} {m : List Byte} {P : State → Prop}
    (hP : ∀ s r, P s → receive E I s m = some r → P r.1) {c c' : Link} (hc : P c.dev)
    (h : request E I ch c m = some (c', some ())) :
    ∃ s r, P s ∧ receive E I s m = some (c'.dev, r) ∧ checkResult r = 0x7f#8 := by
  unfold request at h
  obtain ⟨c1, rb, h1, h2⟩ := andThen_some h
  obtain ⟨s, q1, q2, -⟩ := send_rule hP _ _ _ _ _ _ hc (show _ = some (c1, some (rb.1, rb.2)) from h1)
  by_cases ho : checkResult rb.1 ≠ 0x7f#8
  · rw [if_pos ho] at h2; exact absurd h2 (by simp)
  · rw [if_neg ho] at h2
    obtain ⟨rfl, -⟩ := Prod.mk.inj (Option.some.inj h2)
    exact ⟨s, rb.1, q1, q2, Classical.not_not.mp ho⟩

/-- Answers to unlocking and erasing are statuses. -/
theorem status_of_reply {E : Env} {I : Info} {s : State} {c : Byte} {d : List Byte} (hl : d.length < 255)
    (hc : c = 0xbf#8 ∨ c = 0xe9#8 ∨ c = 0xea#8) {r : State × Resp} (h : receive E I s (c :: d) = some r) :
    ∃ e, r.2 = status e := by
  rcases receive_cons hl h with ⟨e, rfl, -⟩ | ⟨-, -, -, -, hq⟩
  · exact ⟨e, rfl⟩
  · rcases hc with rfl | rfl | rfl
    · have : dispatch E I s 0xbf#8 (fun i => d.getD i 0#8) d.length
          = some (updUnlockDevice E s (fun i => d.getD i 0#8) d.length) := rfl
      rw [this] at hq
      obtain rfl := Option.some.inj hq
      unfold updUnlockDevice
      dsimp only
      split
      · exact ⟨_, rfl⟩
      split
      · exact ⟨_, rfl⟩
      split
      · exact ⟨_, rfl⟩
      · exact ⟨_, rfl⟩
    · have : dispatch E I s 0xe9#8 (fun i => d.getD i 0#8) d.length
          = some (updEraseAddressRange E s (fun i => d.getD i 0#8)) := rfl
      rw [this] at hq
      obtain rfl := Option.some.inj hq
      exact ⟨_, rfl⟩
    · have : dispatch E I s 0xea#8 (fun i => d.getD i 0#8) d.length = some (updEraseFullFlash E s) := rfl
      rw [this] at hq
      obtain rfl := Option.some.inj hq
      exact ⟨_, rfl⟩

/-- After a successful erase request the buffer is empty. -/
theorem erase_clears {E : Env} (L : Layout E) {I : Info} {ram0 : Nat → Byte} {s : State} {buf m : List Byte}
    (hi : BufInv E ram0 s buf) (hm : m = msgEraseAll ∨ ∃ a b, m = msgEraseRange a b) {s' : State} {r : Resp}
    (h : receive E I s m = some (s', r)) (ho : checkResult r = 0x7f#8) : BufInv E ram0 s' [] := by
  have hr : r = ok := by
    obtain ⟨e, he⟩ : ∃ e, r = status e := by
      rcases hm with rfl | ⟨a, b, rfl⟩
      · exact status_of_reply (d := []) (by decide) (.inr (.inr rfl)) h
      · exact status_of_reply (d := le32 a ++ le32 b) (show 8 < 255 by omega) (.inr (.inl rfl)) h
    rw [he, checkResult_status] at ho
    rw [he, ho]
    rfl
  have ht : Telegram m := by
    rcases hm with rfl | ⟨a, b, rfl⟩
    · decide
    · exact (by decide : 9 ≤ 255)
  obtain ⟨buf', hb, hi'⟩ := bufInv_step L hi ht h
  have : buf' = [] := by
    dsimp only at hb
    rw [hr] at hb
    rcases hm with rfl | ⟨a, b, rfl⟩
    · rcases hb with hb | ⟨-, -, hb⟩
      · exact hb
      · exact hb
    · rcases hb with hb | ⟨-, -, hb⟩
      · exact hb
      · exact hb
  rw [← this]
  exact hi'

/-- **C81.** Whatever attempts are lost on the way and whatever flash operations fail: if the tool ends
without an exception, then the device starts an application at the start address of the image, the range of the
image has the CRC-32 of the image, and every byte before the last block is the byte of the image.
(Missing for "the flash holds the image": the last block, see `C81_last_block_not_written`.) -/
theorem C81_finished_update_partial (E : Env) (L : Layout E) (I : Info) (hw : Hw) (ram : Nat → Byte)
    (ms : List (List Byte)) (hm : ∀ m ∈ ms, Telegram m) (s : State) (rs : List Resp)
    (h : run E I (init E hw ram) ms = some (s, rs)) (ch : Channel) (pos fuel flashFuel blockSize : Nat)
    (hB : 0 < blockSize) (hB' : blockSize < 2 ^ 16) (uid image : List Byte) (huid : uid.length = 12)
    (start version : Nat) (hlen : 1 ≤ image.length) (hfit : start + image.length ≤ 2 ^ 32) (eraseAll : Bool)
    (c' : Link) (hdone : fullUpdate E I ch fuel flashFuel blockSize uid image start version eraseAll ⟨s, pos⟩
      = some (c', some ())) :
    startup E c'.dev.hw.flash false false = some (BitVec.ofNat 32 start) ∧
      crc32Std (bytesAt c'.dev.hw.flash start image.length) = crc32Std image ∧
      ∀ x, x < (image.length - 1) / blockSize * blockSize →
        c'.dev.hw.flash (start + x) = image.getD x 0#8 := by
  obtain ⟨buf0, -, hi0⟩ := run_buf L ms hm .start (init_inv L hw ram) h
  unfold fullUpdate at hdone
  -- unlocking
  obtain ⟨c1, _, h1, hdone⟩ := andThen_some hdone
  have hstep : ∀ m, Telegram m → ∀ s r, (∃ buf, BufInv E ram s buf) → receive E I s m = some r →
      ∃ buf, BufInv E ram r.1 buf := by
    rintro m hm s r ⟨buf, hb⟩ hr
    obtain ⟨buf', -, hb'⟩ := bufInv_step L hb hm hr
    exact ⟨buf', hb'⟩
  have ht1 : Telegram (msgUnlock uid) := by
    unfold Telegram msgUnlock; rw [List.length_cons]; omega
  obtain ⟨s1, r1, g1, g2, -⟩ := request_rule (hstep _ ht1) (c := ⟨s, pos⟩) ⟨buf0, hi0⟩ h1
  have hi1 := hstep _ ht1 _ _ g1 g2
  -- erasing
  obtain ⟨c2, _, h2, hdone⟩ := andThen_some hdone
  have hme : ∃ m, (m = msgEraseAll ∨ ∃ a b, m = msgEraseRange a b) ∧
      request E I ch c1 m = some (c2, some ()) := by
    refine ⟨_, ?_, h2⟩
    cases eraseAll with
    | true => exact .inl rfl
    | false => exact .inr ⟨_, _, rfl⟩
  obtain ⟨m, m1, m2⟩ := hme
  have ht2 : Telegram m := by
    rcases m1 with rfl | ⟨a, b, rfl⟩
    · decide
    · exact (by decide : 9 ≤ 255)
  obtain ⟨s2, r2, ⟨b2, g3⟩, g4, g5⟩ := request_rule (hstep _ ht2) hi1 m2
  have hi2 := erase_clears L g3 m1 g4 g5
  -- the blocks
  obtain ⟨c3, _, h3, hdone⟩ := andThen_some hdone
  obtain ⟨hi3, hblocks⟩ := fullLoop_rule L hB hB' hfit fuel [] image [] false c2 c3 hi2 rfl
    (fun h => absurd h (by decide)) (.inl (Nat.zero_mod _)) (fun x hx => absurd hx (by simp)) h3
  -- the descriptor
  unfold programBootDescriptor at hdone
  obtain ⟨c4, _, h4, hdone⟩ := andThen_some hdone
  obtain ⟨X, x1, x2, x3⟩ := doFlash_rule L _ _ 0 c3 c4 [] hi3 h4
  rw [List.nil_append] at x2
  rw [List.drop_zero] at x1
  obtain ⟨s5, r5, ⟨⟨d1, d2⟩, d3⟩, g6, g7⟩ := request_rule
    (P := fun s => (s.ram = c4.dev.ram ∧ True) ∧ ∀ x, appFirst E ≤ x → s.hw.flash x = c4.dev.hw.flash x)
    (by
      rintro s r ⟨⟨p1, -⟩, p3⟩ hr
      obtain ⟨-, q1, -, -, q2, -⟩ := recv_updateDescriptor L _ _ hr
      exact ⟨⟨q1.trans p1, trivial⟩, fun x hx => (q2 x hx).trans (p3 x hx)⟩)
    ⟨⟨rfl, trivial⟩, fun _ _ => rfl⟩ hdone
  obtain ⟨⟨e, he⟩, -, -, -, q2, q3⟩ := recv_updateDescriptor L _ _ g6
  have hr5 : r5 = ok := by
    have he : r5 = status e := he
    rw [he, checkResult_status] at g7
    rw [he, g7]
    rfl
  have hn16 : (BitVec.ofNat 32 (descriptor image start version).length).toNat = 16 := by
    rw [descriptor_length]; rfl
  have hcrc := q3 hr5
  rw [hn16, d1] at hcrc
  have hXl := x1.length
  rw [descriptor_length] at hXl
  have hX16 : bytesAt c4.dev.ram 0 16 = X.take 16 := by
    have hd := x2.data
    have : bytesAt c4.dev.ram 0 X.length = bytesAt c4.dev.ram 0 16 ++ bytesAt c4.dev.ram (0 + 16) (X.length - 16) := by
      rw [← bytesAt_append]
      congr 1
      omega
    rw [this] at hd
    rw [← hd, List.take_append, bytesAt_length, List.take_of_length_le (by rw [bytesAt_length]; exact Nat.le_refl _)]
    simp
  rw [hX16] at hcrc
  have hdesc := descriptor_received (descriptor_length image start version) x1 hcrc
  rw [hdesc] at hX16
  have hw0 : load32 c4.dev.ram 0 = BitVec.ofNat 32 start :=
    load_at (pre := []) (post := le32 (BitVec.ofNat 32 (start + image.length - 1)) ++ (le32 (crc32Std image) ++
      le32 (BitVec.ofNat 32 version))) (by rw [hX16]; rfl)
  have hw4 : load32 c4.dev.ram 4 = BitVec.ofNat 32 (start + image.length - 1) :=
    load_at (pre := le32 (BitVec.ofNat 32 start)) (post := le32 (crc32Std image) ++
      le32 (BitVec.ofNat 32 version)) (by rw [hX16]; rfl)
  have hw8 : load32 c4.dev.ram 8 = crc32Std image :=
    load_at (pre := le32 (BitVec.ofNat 32 start) ++ le32 (BitVec.ofNat 32 (start + image.length - 1)))
      (post := le32 (BitVec.ofNat 32 version)) (by rw [hX16]; rfl)
  rw [hr5] at g6
  obtain ⟨k1, k2, k3⟩ := C45_installed_application_starts E L I s5 c'.dev _ _ (by rw [hn16]; exact Nat.le_refl _) g6
  rw [d1] at k1 k3
  have hwf : ∀ k, k + 3 < 16 → word c'.dev.hw.flash (appFirst E - 256 + k) = load32 c4.dev.ram k := by
    intro k hk
    have e0 := k3 k (by omega)
    have e1 := k3 (k + 1) (by omega)
    have e2 := k3 (k + 2) (by omega)
    have e3 := k3 (k + 3) (by omega)
    rw [← Nat.add_assoc] at e1 e2 e3
    unfold word load32
    rw [e0, e1, e2, e3]
  have hs32 : (BitVec.ofNat 32 start).toNat = start := by rw [BitVec.toNat_ofNat]; omega
  have he32 : (BitVec.ofNat 32 (start + image.length - 1)).toNat = start + image.length - 1 := by
    rw [BitVec.toNat_ofNat]; omega
  have w0 := hwf 0 (by omega)
  rw [Nat.add_zero, hw0] at w0
  unfold AppComplete at k2
  rw [w0, hwf 4 (by omega), hwf 8 (by omega), hw4, hw8, hs32, he32] at k2
  dsimp only at k2
  rw [show start + image.length - 1 + 1 - start = image.length by omega] at k2
  obtain ⟨k4, -, -, k5⟩ := k2
  refine ⟨by rw [k1]; exact congrArg some hw0, k5, fun x hx => ?_⟩
  have hfl : ∀ y, appFirst E ≤ y → c'.dev.hw.flash y = c3.dev.hw.flash y := by
    intro y hy
    have e1 : c'.dev.hw.flash y = s5.hw.flash y := q2 y hy
    rw [e1, d3 y hy, x3]
  rw [hfl _ (by omega)]
  exact hblocks x hx

/-! ## Without losses -/

/-- Every attempt is answered. -/
def allAnswered : Channel := fun _ => .answered

theorem send_answered {E : Env} {I : Info} {m : List Byte} {n : Nat} {c : Link} {lost : Bool} {r : State × Resp}
    (h : receive E I c.dev m = some r) :
    sendWithRetry E I allAnswered m (n + 1) c lost = some (⟨r.1, c.pos + 1⟩, some (r.2, lost)) := by
  unfold sendWithRetry attempt
  show (match (receive E I c.dev m).map _ with
    | none => none
    | some (c', some r) => some (c', some (r, lost))
    | some (c', none) => sendWithRetry E I allAnswered m n c' true) = _
  rw [h]
  rfl

theorem request_answered {E : Env} {I : Info} {m : List Byte} {c : Link} {s' : State}
    (h : receive E I c.dev m = some (s', ok)) :
    request E I allAnswered c m = some (⟨s', c.pos + 1⟩, some ()) := by
  unfold request maxRetry
  rw [send_answered h]
  rfl

theorem doFlash_answered {E : Env} (L : Layout E) {I : Info} {ram0 : Nat → Byte} (data : List Byte) :
    ∀ (fuel i : Nat) (c : Link) (buf : List Byte), data.length - i < fuel → BufInv E ram0 c.dev buf →
      c.dev.deviceLocked = DEVICE_UNLOCKED → buf.length + (data.length - i) ≤ 1265 →
      ∃ c', doFlash E I allAnswered data fuel i c = some (c', some ()) ∧
        BufInv E ram0 c'.dev (buf ++ data.drop i) ∧ c'.dev.hw = c.dev.hw ∧
        c'.dev.deviceLocked = DEVICE_UNLOCKED := by
  intro fuel
  induction fuel with
  | zero => intro i c buf h; omega
  | succ fuel ih =>
    intro i c buf hf hi hu hsz
    unfold doFlash
    by_cases hlt : i < data.length
    · rw [if_pos hlt]
      dsimp only
      have hl : ((data.drop i).take 13).length = min 13 (data.length - i) := by
        rw [List.length_take, List.length_drop]
      obtain ⟨s', e1, e2, e3, e4⟩ := send_step L (I := I) hi hu ((data.drop i).take 13) (by omega) (by omega) (by omega)
      unfold maxRetry
      rw [send_answered e1]
      show ∃ c', doFlash E I allAnswered data fuel (i + ((data.drop i).take 13).length) ⟨s', c.pos + 1⟩ = _ ∧ _
      obtain ⟨c', q1, q2, q3, q4⟩ := ih (i + ((data.drop i).take 13).length) ⟨s', c.pos + 1⟩ _ (by omega) e2 e4
        (by rw [List.length_append]; omega)
      refine ⟨c', q1, ?_, q3.trans e3, q4⟩
      have : (data.drop i).take 13 ++ data.drop (i + ((data.drop i).take 13).length) = data.drop i := by
        rw [hl]
        by_cases h13 : 13 ≤ data.length - i
        · rw [Nat.min_eq_left h13, ← List.drop_drop, List.take_append_drop]
        · rw [List.drop_of_length_le (i := i + _) (by omega), List.append_nil,
            List.take_of_length_le (by rw [List.length_drop]; omega)]
      rw [List.append_assoc, this] at q2
      exact q2
    · rw [if_neg hlt]
      refine ⟨c, rfl, ?_, rfl, hu⟩
      rw [List.drop_of_length_le (by omega), List.append_nil]
      exact hi

/-- A programming request for what is in the buffer, on blank flash that works. -/
theorem program_answered {E : Env} (L : Layout E) {I : Info} {ram0 : Nat → Byte} {s : State} {buf : List Byte}
    (hi : BufInv E ram0 s buf) (hu : s.deviceLocked = DEVICE_UNLOCKED) (hf : ∀ k, E.fault k = none)
    (hne : buf ≠ []) {a : U32} (hT : Target E a buf.length)
    (hblank : ∀ i, i < cap buf.length → s.hw.flash (a.toNat + i) = 0xFF#8) :
    ∃ s', receive E I s (msgProgram (BitVec.ofNat 16 buf.length) a (crc32Std buf)) = some (s', ok) ∧
      s'.deviceLocked = DEVICE_UNLOCKED ∧ BufInv E ram0 s' [] ∧
      (∀ i, i < buf.length → s'.hw.flash (a.toNat + i) = buf.getD i 0#8) ∧
      ∀ x, ¬ InR a.toNat (cap buf.length) x → s'.hw.flash x = s.hw.flash x := by
  have hsz := L.size
  have hpos : 0 < buf.length := List.length_pos_iff.mpr hne
  have hfits : buf.length ≤ 1265 := hi.fits
  have hlen : (BitVec.ofNat 16 buf.length).toNat = buf.length := by rw [BitVec.toNat_ofNat]; omega
  have hspec := programAll_spec L s.hw s.ram buf.length a hT hpos
  have hst := hspec.2.2.2 hf hblank
  have hprog : updProgram E s (fun i => (le16 (BitVec.ofNat 16 buf.length) ++ le32 a ++
      le32 (crc32Std buf)).getD i 0#8)
      = ({ s with hw := (programAll E s.hw s.ram buf.length a).2, ramBufferPosition := 0#16 }, ok) := by
    obtain ⟨h1, h2, h3⟩ := load_program (BitVec.ofNat 16 buf.length) a (crc32Std buf)
    unfold updProgram
    rw [h1, h2, h3, hlen]
    dsimp only
    have hal : addressAllowedToProgram E a (BitVec.ofNat 32 buf.length) false = true := by
      have hh := hT.high
      rw [allowed_iff L]
      refine ⟨hT.align, ?_, hT.low, ?_⟩
      · intro h0
        have := congrArg BitVec.toNat h0
        simp only [BitVec.toNat_ofNat] at this
        omega
      · simp only [BitVec.toNat_add, BitVec.toNat_sub, BitVec.toNat_ofNat]
        omega
    have hpp := hi.pos
    rw [hal, if_neg (by decide), if_neg (by show ¬ _ > 1265; omega), if_neg (by omega), if_neg (by omega),
      hi.data, crc_eq, if_neg (fun h => h rfl), hst]
    rfl
  have hr := receive_program (E := E) (I := I) hu (BitVec.ofNat 16 buf.length) a (crc32Std buf)
  rw [hprog] at hr
  refine ⟨_, hr, hu, hi.cleared rfl rfl hi.decomp, fun i hlt => ?_, fun x hx => hspec.2.1 x hx⟩
  have hcap : buf.length ≤ cap buf.length := by unfold cap; omega
  show (programAll E s.hw s.ram buf.length a).2.flash (a.toNat + i) = _
  rw [hspec.2.2.1 hst i (by omega)]
  have hd : bytesAt s.ram 0 buf.length = buf := hi.data
  conv => rhs; rw [← hd]
  rw [bytesAt_get (by omega), Nat.zero_add]

theorem fullLoop_answered {E : Env} (L : Layout E) {I : Info} {ram0 : Nat → Byte} {ff B start : Nat}
    (hf : ∀ k, E.fault k = none) (hB : 0 < B) (hB' : B ≤ 1265) (hB'' : B % 256 = 0) (hff : B < ff)
    {image : List Byte} (hal : start % 256 = 0) (hlo : appFirst E ≤ start) (hfit : start + image.length ≤ E.top) :
    ∀ (fuel : Nat) (sent rest buffer : List Byte) (c : Link), rest.length < fuel → image = sent ++ rest →
      (sent.length % 256 = 0 ∨ rest = []) → BufInv E ram0 c.dev [] → c.dev.deviceLocked = DEVICE_UNLOCKED →
      Holds c.dev.hw.flash start sent →
      (rest ≠ [] → ∀ x, sent.length ≤ x → x < cap image.length → c.dev.hw.flash (start + x) = 0xFF#8) →
      ∃ c', fullLoop E I allAnswered ff B fuel rest buffer false (start + sent.length) c = some (c', some ()) ∧
        BufInv E ram0 c'.dev [] ∧ c'.dev.deviceLocked = DEVICE_UNLOCKED ∧ Holds c'.dev.hw.flash start image := by
  have hsz := L.size
  have hsec := L.sectors
  intro fuel
  induction fuel with
  | zero => intro sent rest buffer c h; omega
  | succ fuel ih =>
    intro sent rest buffer c hfu him hmod hi hu hold hblank
    unfold fullLoop
    by_cases hr : rest = []
    · subst hr
      refine ⟨c, rfl, hi, hu, ?_⟩
      rw [him, List.append_nil]
      exact hold
    · have hemp : rest.isEmpty = false := by
        cases rest with
        | nil => exact absurd rfl hr
        | cons => rfl
      have hrl := List.length_pos_iff.mpr hr
      have hm0 : sent.length % 256 = 0 := by
        rcases hmod with hm | hm
        · exact hm
        · exact absurd hm hr
      rw [hemp, if_neg (by decide)]
      dsimp only
      rw [if_neg (by decide), if_neg (by decide)]
      have htl : (rest.take B).length = min B rest.length := List.length_take ..
      have hil : image.length = sent.length + rest.length := by rw [him, List.length_append]
      have hne : rest.take B ≠ [] := by
        intro h0
        rw [h0, List.length_nil] at htl
        omega
      obtain ⟨c1, q1, q2, q3, q4⟩ := doFlash_answered L (I := I) (rest.take B) ff 0 c [] (by omega) hi hu
        (by rw [List.length_nil]; omega)
      rw [List.nil_append, List.drop_zero] at q2
      have han : (BitVec.ofNat 32 (start + sent.length)).toNat = start + sent.length := by
        rw [BitVec.toNat_ofNat]; omega
      have hcap : sent.length + cap (rest.take B).length ≤ cap image.length := by
        unfold cap
        rw [hil, htl]
        omega
      have hcapt : start + cap image.length ≤ E.top := by unfold cap; omega
      obtain ⟨s2, e1, e2, e3, e4, e5⟩ := program_answered L (I := I) q2 q4 hf hne
        (a := BitVec.ofNat 32 (start + sent.length))
        ⟨by rw [han]; omega, by rw [han]; omega, by rw [han]; unfold cap at hcap hcapt; omega⟩
        (fun i hlt => by
          rw [han, q3, Nat.add_assoc]
          exact hblank hr _ (by omega) (by omega))
      rw [han] at e4 e5
      rw [q1]
      unfold maxRetry
      show ∃ c', andThen (sendWithRetry E I allAnswered _ (2 + 1) c1 false) _ = _ ∧ _
      rw [send_answered e1]
      show ∃ c', fullLoop E I allAnswered ff B fuel (rest.drop B) (rest.take B) false
        (start + sent.length + (rest.take B).length) ⟨s2, c1.pos + 1⟩ = _ ∧ _
      rw [Nat.add_assoc, ← List.length_append]
      refine ih (sent ++ rest.take B) (rest.drop B) (rest.take B) ⟨s2, c1.pos + 1⟩
        (by rw [List.length_drop]; omega) (by rw [List.append_assoc, List.take_append_drop]; exact him) ?_ e3 e2 ?_ ?_
      · by_cases hb : B ≤ rest.length
        · left; rw [List.length_append, htl]; omega
        · right; exact List.drop_of_length_le (by omega)
      · intro x hx
        rw [List.length_append] at hx
        by_cases hxs : x < sent.length
        · rw [getD_append_lt hxs, ← hold x hxs, ← q3]
          exact e5 _ (fun hc => by have := hc.1; omega)
        · rw [getD_append_ge (by omega)]
          have := e4 (x - sent.length) (by omega)
          rw [show start + sent.length + (x - sent.length) = start + x by omega] at this
          exact this
      · intro hrd x hx hx'
        rw [List.length_append, htl] at hx
        rw [← hblank hr x (by omega) hx', ← q3]
        refine e5 _ (fun hc => ?_)
        have hc2 := hc.2
        by_cases hb : B ≤ rest.length
        · unfold cap at hc2; rw [htl] at hc2; omega
        · exact hrd (List.drop_of_length_le (by omega))

/-- The descriptor request, on working hardware, for a descriptor in the buffer that describes what is in the
flash. -/
theorem descriptor_answered {E : Env} (L : Layout E) {I : Info} {s : State}
    (hu : s.deviceLocked = DEVICE_UNLOCKED) (hf : ∀ k, E.fault k = none) (hodd : E.imageEnd % 256 ≠ 1)
    {d : List Byte} (hd : d.length = 16) (hram : bytesAt s.ram 0 16 = d)
    (hcheck : ∀ flash, (∀ x, appFirst E ≤ x → flash x = s.hw.flash x) →
      checkApplication E flash (loadBlock s.ram 0) = true) :
    ∃ s', receive E I s (msgUpdateDescriptor (BitVec.ofNat 32 d.length) (crc32Std d)) = some (s', ok) := by
  have hge := appFirst_ge E
  have hle := appFirst_le E
  have hsz := L.size
  have hroom := L.room
  have himg := L.image
  have hal := appFirst_aligned hodd
  rw [receive_updateDescriptor hu, hd]
  have hn : (BitVec.ofNat 32 16).toNat = 16 := rfl
  obtain ⟨l1, l2⟩ := load_eraseRange (BitVec.ofNat 32 16) (crc32Std d)
  have hpage := descPage_eq L
  have haddr := descAddr_eq L
  have hE := erasePages_spec L s.hw (bootDescriptorBlockPage E) (bootDescriptorBlockPage E) (Nat.le_refl _)
    (by rw [hpage]; unfold appFirst; rw [if_neg hodd]; omega) (by rw [hpage]; omega)
  have hst := hE.live hf
  have hallow : addressAllowedToProgram E (bootDescriptorBlockAddress E) (BitVec.ofNat 32 256) true = true := by
    rw [allowedDesc_iff L, haddr]
    refine ⟨by omega, by decide, Nat.le_refl _, ?_⟩
    simp only [BitVec.toNat_add, BitVec.toNat_sub, BitVec.toNat_ofNat, haddr]
    omega
  have hprog : ∀ hw : Hw, (∀ i, i < 256 → hw.flash (appFirst E - 256 + i) = 0xFF#8) →
      (executeProgramFlash E hw (bootDescriptorBlockAddress E) s.ram 256 true).1 = UDP_IAP_SUCCESS ∧
      ∀ x, appFirst E ≤ x →
        (executeProgramFlash E hw (bootDescriptorBlockAddress E) s.ram 256 true).2.flash x = hw.flash x := by
    intro hw hb
    unfold executeProgramFlash
    rw [hallow, if_neg (by decide)]
    refine ⟨(iapState_success _).mpr (program_noFault _ hf _ _ _ _ (by rw [haddr]; omega) (by rw [haddr]; omega)
      L.sectors L.size (.inl rfl) (by rw [haddr]; exact hb)), fun x hx => program_out _ _ _ _ _ _ ?_⟩
    rw [haddr]
    omega
  have hfin : ∀ (hw : Hw) (q : Byte), q = UDP_IAP_SUCCESS → (∀ x, appFirst E ≤ x → hw.flash x = s.hw.flash x) →
      ∃ s', (if (!checkApplication E hw.flash (loadBlock s.ram 0)) = true then
        (({ s with hw := hw } : State), lastError UDP_APPLICATION_NOT_STARTABLE)
        else ({ s with hw := hw }, lastError q)) = (s', ok) := by
    intro hw q hq hx
    rw [hcheck hw.flash hx, if_neg (by decide), hq]
    exact ⟨_, rfl⟩
  suffices h : ∃ s', updUpdateBootDescriptorBlock E s
      (fun i => (le32 (BitVec.ofNat 32 16) ++ le32 (crc32Std d)).getD i 0#8) = (s', ok) by
    obtain ⟨s', h⟩ := h
    exact ⟨s', by rw [h]⟩
  unfold updUpdateBootDescriptorBlock
  rw [l1, l2]
  dsimp only
  rw [hn, if_neg (by show ¬ 16 > 1265; omega), hram, crc_eq, if_neg (fun h => h rfl)]
  by_cases hs : same (fun i => s.hw.flash ((bootDescriptorBlockAddress E).toNat + i)) s.ram 16 = true
  · rw [if_pos hs]
    exact hfin s.hw _ rfl (fun _ _ => rfl)
  · rw [if_neg hs, if_neg (fun h => h hst)]
    obtain ⟨p1, p2⟩ := hprog (erasePageRange E s.hw (bootDescriptorBlockPage E) (bootDescriptorBlockPage E)).2
      (fun i hi => hE.done hst _ (by rw [hpage]; omega) (by rw [hpage]; omega))
    rw [if_neg (by rw [p1]; decide)]
    refine hfin _ _ p1 (fun x hx => ?_)
    rw [p2 x hx]
    exact hE.frame x (by rw [hpage]; omega)

/-- **C81.** If no attempt is lost, the flash hardware works and the image fits into the application area, then
the tool ends with success, the flash holds the image, and the image is started - from every state the device
can be in, in particular after updates that were broken off. -/
theorem C81_lossless_update_succeeds (E : Env) (L : Layout E) (I : Info) (hw : Hw) (ram : Nat → Byte)
    (ms : List (List Byte)) (hm : ∀ m ∈ ms, Telegram m) (s : State) (rs : List Resp)
    (h : run E I (init E hw ram) ms = some (s, rs)) (pos fuel flashFuel blockSize : Nat)
    (hB : 0 < blockSize) (hB' : blockSize ≤ 1265) (hB'' : blockSize % 256 = 0)
    (uid image : List Byte) (huid : UnlocksWith (bytesAt E.uid 0 12) (msgUnlock uid))
    (hfuel : image.length < fuel) (hff : blockSize < flashFuel)
    (hodd : E.imageEnd % 256 ≠ 1) (hf : ∀ k, E.fault k = none)
    (start version : Nat) (hlen : 2 ≤ image.length) (hal : start % 256 = 0) (hlo : appFirst E ≤ start)
    (hfit : start + image.length ≤ E.top) (eraseAll : Bool) :
    ∃ c', fullUpdate E I allAnswered fuel flashFuel blockSize uid image start version eraseAll ⟨s, pos⟩
        = some (c', some ()) ∧
      Holds c'.dev.hw.flash start image ∧
      startup E c'.dev.hw.flash false false = some (BitVec.ofNat 32 start) := by
  have hsz := L.size
  have hsec := L.sectors
  have hge := appFirst_ge E
  obtain ⟨buf0, -, hi0⟩ := run_buf L ms hm .start (init_inv L hw ram) h
  obtain ⟨s1, e1, u1, -⟩ := C38_right_id_unlocks E I s _ huid hf
  have ht1 : Telegram (msgUnlock uid) := by
    have := huid.2.1
    unfold Telegram
    omega
  obtain ⟨buf1, -, hi1⟩ := bufInv_step L hi0 ht1 e1
  have hs32 : (BitVec.ofNat 32 start).toNat = start := by rw [BitVec.toNat_ofNat]; omega
  have he32 : (BitVec.ofNat 32 (start + image.length - 1)).toNat = start + image.length - 1 := by
    rw [BitVec.toNat_ofNat]; omega
  -- erasing
  obtain ⟨s2, e2, u2, i2, b2⟩ : ∃ s2, receive E I s1 (if eraseAll then msgEraseAll else
      msgEraseRange (BitVec.ofNat 32 start) (BitVec.ofNat 32 (start + image.length - 1))) = some (s2, ok) ∧
      s2.deviceLocked = DEVICE_UNLOCKED ∧ BufInv E ram s2 [] ∧
      ∀ x, x < cap image.length → s2.hw.flash (start + x) = 0xFF#8 := by
    cases eraseAll with
    | true =>
      obtain ⟨s2, r2, q1, -, q2, q3⟩ := C42_erase_all E L I s1 u1
      rw [q3 hf] at q1 q2
      have hq : receive E I s1 msgEraseAll = some (resetUPDProtocol { s1 with hw := (eraseFullFlash E s1.hw).2 },
          status (eraseFullFlash E s1.hw).1) := by
        rw [msgEraseAll, receive_unlocked (by decide) u1 (by decide) (by decide) (by decide)]
        rfl
      have hs2 : s2 = resetUPDProtocol { s1 with hw := (eraseFullFlash E s1.hw).2 } := by
        rw [q1] at hq
        exact (Prod.mk.inj (Option.some.inj hq)).1
      refine ⟨s2, q1, by rw [hs2]; exact u1, by rw [hs2]; exact hi1.cleared rfl rfl hi1.decomp, fun x hx => ?_⟩
      exact q2 rfl _ (by omega) (by unfold cap at hx; omega)
    | false =>
      have hv : EraseRequestValid E (BitVec.ofNat 32 start) (BitVec.ofNat 32 (start + image.length - 1)) :=
        ⟨by rw [hs32]; exact hal, by rw [hs32]; exact hlo, by rw [hs32, he32]; omega, by rw [he32]; omega⟩
      have hE := erase_valid_spec L s1.hw hv
      have hok := hE.live hf
      have q1 := receive_erase (E := E) (I := I) u1 (BitVec.ofNat 32 start) (BitVec.ofNat 32 (start + image.length - 1))
      rw [hok] at q1
      refine ⟨_, q1, u1, hi1.cleared rfl rfl hi1.decomp, fun x hx => ?_⟩
      exact hE.done hok _ (by rw [hs32]; omega) (by rw [he32]; unfold cap at hx; omega)
  -- the blocks
  obtain ⟨c3, e3, i3, u3, hold⟩ := fullLoop_answered L (I := I) hf hB hB' hB'' hff hal hlo hfit fuel [] image []
    ⟨s2, pos + 1 + 1⟩ hfuel rfl (.inl rfl) i2 u2 (fun x hx => absurd hx (by simp)) (fun _ x _ hx => b2 x hx)
  -- the descriptor
  obtain ⟨c4, e4, i4, w4, u4⟩ := doFlash_answered L (I := I) (descriptor image start version) flashFuel 0 c3 []
    (by rw [descriptor_length]; omega) i3 u3 (by rw [descriptor_length, List.length_nil]; omega)
  rw [List.nil_append, List.drop_zero] at i4
  have hram : bytesAt c4.dev.ram 0 16 = descriptor image start version := i4.data
  have hw0 : load32 c4.dev.ram 0 = BitVec.ofNat 32 start :=
    load_at (pre := []) (post := le32 (BitVec.ofNat 32 (start + image.length - 1)) ++ (le32 (crc32Std image) ++
      le32 (BitVec.ofNat 32 version))) (by rw [hram]; rfl)
  have hw4 : load32 c4.dev.ram 4 = BitVec.ofNat 32 (start + image.length - 1) :=
    load_at (pre := le32 (BitVec.ofNat 32 start)) (post := le32 (crc32Std image) ++
      le32 (BitVec.ofNat 32 version)) (by rw [hram]; rfl)
  have hw8 : load32 c4.dev.ram 8 = crc32Std image :=
    load_at (pre := le32 (BitVec.ofNat 32 start) ++ le32 (BitVec.ofNat 32 (start + image.length - 1)))
      (post := le32 (BitVec.ofNat 32 version)) (by rw [hram]; rfl)
  have himg : ∀ flash : Nat → Byte, Holds flash start image → bytesAt flash start image.length = image := by
    intro flash hh
    rw [bytesAt_shift (m' := fun i => image.getD i 0#8) (b := 0) (fun i hi => by rw [hh i hi, Nat.zero_add])]
    exact bytesAt_getD image
  obtain ⟨s5, e5⟩ := descriptor_answered L (I := I) u4 hf hodd (descriptor_length image start version) hram
    (by
      intro flash hx
      rw [checkApplication_iff L]
      have h0 : (loadBlock c4.dev.ram 0).startAddress = BitVec.ofNat 32 start := hw0
      have h4 : (loadBlock c4.dev.ram 0).endAddress = BitVec.ofNat 32 (start + image.length - 1) := hw4
      have h8 : (loadBlock c4.dev.ram 0).crc = crc32Std image := hw8
      rw [h0, h4, h8, hs32, he32]
      refine ⟨hlo, by omega, by omega, ?_⟩
      rw [show start + image.length - 1 + 1 - start = image.length by omega, himg]
      intro x hlt
      rw [hx _ (by omega), w4]
      exact hold x hlt)
  have hn16 : (BitVec.ofNat 32 (descriptor image start version).length).toNat = 16 := by
    rw [descriptor_length]; rfl
  obtain ⟨k1, -, -⟩ := C45_installed_application_starts E L I c4.dev s5 _ _ (by rw [hn16]; exact Nat.le_refl _) e5
  obtain ⟨-, -, -, -, q2, -⟩ := recv_updateDescriptor L _ _ e5
  refine ⟨⟨s5, c4.pos + 1⟩, ?_, fun x hx => ?_, k1.trans (congrArg some hw0)⟩
  · unfold fullUpdate
    rw [request_answered (c := ⟨s, pos⟩) e1]
    show andThen (request E I allAnswered ⟨s1, pos + 1⟩ _) _ = _
    rw [request_answered (c := ⟨s1, pos + 1⟩) e2]
    show andThen (fullLoop E I allAnswered flashFuel blockSize fuel image [] false start ⟨s2, pos + 1 + 1⟩) _ = _
    have e3' : fullLoop E I allAnswered flashFuel blockSize fuel image [] false start ⟨s2, pos + 1 + 1⟩
        = some (c3, some ()) := e3
    rw [e3']
    show programBootDescriptor E I allAnswered flashFuel (descriptor image start version) c3 = _
    unfold programBootDescriptor
    rw [e4]
    show request E I allAnswered c4 _ = _
    rw [request_answered e5]
  · have e : s5.hw.flash (start + x) = c4.dev.hw.flash (start + x) := q2 _ (by omega)
    show s5.hw.flash (start + x) = _
    rw [e, w4]
    exact hold x hx

/-! ## Concrete runs and findings -/

/-- Exactly the request with number `n` is lost. -/
def losing (n : Nat) : Channel := fun k => if k = n then .requestLost else .answered

/-- An image of 20 bytes, and what becomes of its update: the tool's result, what the device starts, and the
first bytes in the flash. -/
def demoImage : List Byte := (List.range 20).map (fun i => BitVec.ofNat 8 (3 * i + 1))

def demoUpdate (ch : Channel) (image : List Byte) : Option (Option Unit × Option U32 × List Byte) :=
  (fullUpdate demoEnv demoInfo ch 100 300 256 demoUid image 0x1000 0x1000 false ⟨demoStart, 0⟩).map
    fun r => (r.2, startup demoEnv r.1.dev.hw.flash false false, bytesAt r.1.dev.hw.flash 0x1000 image.length)

/-- Non-vacuity of `C81_lossless_update_succeeds`: its hypotheses hold, and this is the result. -/
example : UnlocksWith (bytesAt demoEnv.uid 0 12) (msgUnlock demoUid) ∧ demoEnv.imageEnd % 256 ≠ 1 ∧
    appFirst demoEnv ≤ 0x1000 ∧ 0x1000 + demoImage.length ≤ demoEnv.top ∧
    demoUpdate allAnswered demoImage = some (some (), some 0x1000#32, demoImage) := by
  refine ⟨by decide, by decide, by decide, by decide, by decide +kernel⟩

/-- Non-vacuity of `C81_finished_update_partial` with losses: the unlock request, the answer to the erase
request and the programming request are lost once each, and the update still succeeds. -/
example : demoUpdate (fun k => if k = 0 ∨ k = 6 then .requestLost else if k = 2 then .answerLost else .answered)
    demoImage = some (some (), some 0x1000#32, demoImage) := by decide +kernel

/-- **C81, finding.** One lost data telegram in the last block makes the update fail: the device notices the
wrong number of bytes, the tool remembers to repeat the block, but its loop ends because nothing is left to be
read; the descriptor is then refused. -/
theorem C81_loss_in_last_block_fails :
    demoUpdate (losing 2) demoImage = some (none, none, List.replicate 20 0xFF#8) := by decide +kernel

/-- One lost answer to the programming request of the last block: the block is written, but the
repeated request is answered with "too few bytes"; the tool goes on, and the update succeeds. -/
example : demoUpdate (fun k => if k = 4 then .answerLost else .answered) demoImage
    = some (some (), some 0x1000#32, demoImage) := by decide +kernel

/-- **C81, finding.** One lost telegram while the descriptor is sent makes the update fail: the bytes are sent
twice, the descriptor's checksum is wrong. -/
theorem C81_loss_in_descriptor_fails :
    demoUpdate (losing 5) demoImage = some (none, none, demoImage) := by decide +kernel

/-- An image with the CRC-32 of eight bytes 0xFF. -/
def demoCollision : List Byte := [0xfe#8, 0xff#8, 0xff#8, 0xff#8, 0x9a#8, 0x98#8, 0x43#8, 0x47#8]

/-- **C81, finding.** The tool can report success although the last block was never written: if a data telegram
of the last block is lost and the CRC-32 does not tell the image from the erased flash, erased flash is
started. -/
theorem C81_last_block_not_written :
    demoUpdate (losing 2) demoCollision = some (some (), some 0x1000#32, List.replicate 8 0xFF#8) ∧
      demoCollision ≠ List.replicate 8 0xFF#8 := by
  refine ⟨by decide +kernel, by decide⟩

end Verif.Boot
