import Verif.Boot.StepLemmas

/-! The download buffer invariant. -/

namespace Verif.Boot
open Verif.Iap Spec

/-- The device's buffer holds `buf`; `top` bytes of RAM behind it are as in `ram0`. -/
structure BufInv (E : Env) (ram0 : Nat → Byte) (s : State) (buf : List Byte) : Prop where
  pos : s.ramBufferPosition.toNat = buf.length
  data : bytesAt s.ram 0 buf.length = buf
  fits : buf.length ≤ bufferSize
  beyond : ∀ i, bufferSize ≤ i → s.ram i = ram0 i
  decomp : DInv E s.decomp

theorem bytesAt_length (m : Nat → Byte) (a n : Nat) : (bytesAt m a n).length = n := by
  simp [bytesAt]

theorem bytesAt_get {m : Nat → Byte} {a n i : Nat} (h : i < n) :
    (bytesAt m a n).getD i 0#8 = m (a + i) := by
  simp [bytesAt, h]

theorem bytesAt_append (m : Nat → Byte) (a n k : Nat) :
    bytesAt m a (n + k) = bytesAt m a n ++ bytesAt m (a + n) k := by
  unfold bytesAt
  rw [List.range_add, List.map_append, List.map_map]
  congr 1
  apply List.map_congr_left
  intro i _
  simp only [Function.comp]
  rw [Nat.add_assoc]

theorem bytesAt_getD (d : List Byte) : bytesAt (fun i => d.getD i 0#8) 0 d.length = d := by
  apply List.ext_getElem
  · rw [bytesAt_length]
  · intro i h1 h2
    simp [bytesAt, h2]

theorem bytesAt_congr {m m' : Nat → Byte} {a n : Nat} (h : ∀ i, i < n → m (a + i) = m' (a + i)) :
    bytesAt m a n = bytesAt m' a n := by
  unfold bytesAt
  apply List.map_congr_left
  intro i hi
  exact h i (List.mem_range.mp hi)

theorem bytesAt_shift {m m' : Nat → Byte} {a b n : Nat} (h : ∀ i, i < n → m (a + i) = m' (b + i)) :
    bytesAt m a n = bytesAt m' b n := by
  unfold bytesAt
  apply List.map_congr_left
  intro i hi
  exact h i (List.mem_range.mp hi)

theorem BufInv.cleared {E : Env} {ram0 : Nat → Byte} {s s' : State} {buf : List Byte}
    (h : BufInv E ram0 s buf) (hr : s'.ram = s.ram) (hp : s'.ramBufferPosition = 0#16)
    (hd : DInv E s'.decomp) : BufInv E ram0 s' [] :=
  ⟨by rw [hp]; rfl, rfl, by decide, by rw [hr]; exact h.beyond, hd⟩

theorem BufInv.same {E : Env} {ram0 : Nat → Byte} {s s' : State} {buf : List Byte}
    (h : BufInv E ram0 s buf) (hr : s'.ram = s.ram) (hp : s'.ramBufferPosition = s.ramBufferPosition)
    (hd : DInv E s'.decomp) : BufInv E ram0 s' buf :=
  ⟨by rw [hp]; exact h.pos, by rw [hr]; exact h.data, h.fits, by rw [hr]; exact h.beyond, hd⟩

/-- The commands that never touch the download buffer. -/
theorem dispatch_other {E : Env} {I : Info} {s : State} {c : Byte} {data : Nat → Byte} {n : Nat}
    {r : State × Resp} (hd : DInv E s.decomp) (h : dispatch E I s c data n = some r) (h1 : c ≠ 0xef#8)
    (h2 : c ≠ 0xbf#8) (h3 : c ≠ 0xee#8) (h4 : c ≠ 0xe9#8) (h5 : c ≠ 0xea#8) (h6 : c ≠ 0xeb#8) :
    r.1.ram = s.ram ∧ r.1.ramBufferPosition = s.ramBufferPosition ∧ DInv E r.1.decomp := by
  unfold dispatch at h
  rw [if_neg h2] at h
  by_cases c1 : c = 0xbe#8
  · rw [if_pos c1] at h
    obtain rfl := Option.some.inj h
    unfold updRequestUID
    dsimp only
    split <;> exact ⟨rfl, rfl, hd⟩
  rw [if_neg c1] at h
  by_cases c2 : c = 0xbc#8
  · rw [if_pos c2] at h
    obtain rfl := Option.some.inj h
    exact ⟨rfl, rfl, hd⟩
  rw [if_neg c2, if_neg h1, if_neg h3] at h
  by_cases c3 : c = 0xec#8
  · rw [if_pos c3] at h
    unfold updSendDataToDecompress at h
    split at h
    · obtain rfl := Option.some.inj h
      exact ⟨rfl, rfl, hd⟩
    · cases hp : Decomp.putBytes E s.hw.flash s.decomp (bytesAt data 0 n) with
      | none => rw [hp] at h; exact absurd h (by simp)
      | some d =>
        rw [hp] at h
        obtain rfl := Option.some.inj h
        exact ⟨rfl, rfl, putBytes_inv _ hd hp⟩
  rw [if_neg c3, if_neg h6, if_neg h5, if_neg h4] at h
  by_cases c4 : c = 0xe7#8
  · rw [if_pos c4] at h
    obtain rfl := Option.some.inj h
    exact ⟨rfl, rfl, hd⟩
  rw [if_neg c4] at h
  by_cases c5 : c = 0xdf#8
  · rw [if_pos c5] at h
    obtain rfl := Option.some.inj h
    exact ⟨rfl, rfl, hd⟩
  rw [if_neg c5] at h
  by_cases c6 : c = 0xed#8
  · rw [if_pos c6] at h
    obtain rfl := Option.some.inj h
    unfold updUpdateBootDescriptorBlock
    dsimp only
    repeat' split
    all_goals exact ⟨rfl, rfl, hd⟩
  rw [if_neg c6] at h
  by_cases c7 : c = 0xba#8
  · rw [if_pos c7] at h
    obtain rfl := Option.some.inj h
    exact ⟨rfl, rfl, hd⟩
  rw [if_neg c7] at h
  by_cases c8 : c = 0xb8#8
  · rw [if_pos c8] at h
    obtain rfl := Option.some.inj h
    exact ⟨rfl, rfl, hd⟩
  rw [if_neg c8] at h
  by_cases c9 : c = 0xe8#8
  · rw [if_pos c9] at h
    obtain rfl := Option.some.inj h
    exact ⟨rfl, rfl, hd⟩
  rw [if_neg c9] at h
  obtain rfl := Option.some.inj h
  exact ⟨rfl, rfl, hd⟩

theorem bufStep_refused {buf : List Byte} {c : Byte} {d : List Byte} {e : Byte}
    (he : e = 0x01#8 ∨ e = 0x55#8 ∨ e = 0x58#8)
    (h1 : e = 0x01#8 → c ≠ 0xe9#8 ∧ c ≠ 0xea#8) : bufStep buf (c :: d, status e) = buf := by
  have hx : executed (status e) = false := by
    rcases he with rfl | rfl | rfl <;> decide
  have hok : status e ≠ ok := by rcases he with rfl | rfl | rfl <;> decide
  have ha : status e ≠ status 0x4f#8 := by rcases he with rfl | rfl | rfl <;> decide
  have hb : status e ≠ status 0x50#8 := by rcases he with rfl | rfl | rfl <;> decide
  unfold bufStep
  dsimp only
  split
  · simp [hok]
  · split
    · simp [hok]
    · split
      · rw [if_neg (by rw [hx]; rintro (h | h | h)
                       · exact absurd h (by decide)
                       · exact ha h
                       · exact hb h)]
      · split
        · rename_i hc
          rcases he with rfl | rfl | rfl
          · have := h1 rfl
            rcases hc with hc | hc
            · exact absurd hc this.1
            · exact absurd hc this.2
          · rw [if_pos (.inl rfl)]
          · rw [if_pos (.inr rfl)]
        · split
          · rw [if_neg (by rw [hx]; decide)]
          · rfl

theorem executed_status {e : Byte} (h : 0x73 ≤ e.toNat) : executed (lastError e) = true := by
  unfold executed lastError; simpa using h

theorem bufInv_step {E : Env} (L : Layout E) {I : Info} {ram0 : Nat → Byte} {s : State} {buf m : List Byte}
    (hi : BufInv E ram0 s buf) (hm : Telegram m) {r : State × Resp} (h : receive E I s m = some r) :
    ∃ buf', BufStep buf (m, r.2) buf' ∧ BufInv E ram0 r.1 buf' := by
  cases m with
  | nil =>
    obtain rfl := receive_nil h
    exact ⟨buf, .inl rfl, hi⟩
  | cons c d =>
    have hlen : d.length < 255 := by unfold Telegram at hm; simp only [List.length_cons] at hm; omega
    rcases receive_cons hlen h with ⟨e, rfl, he, hc⟩ | ⟨hc, hlo, hhi, hu, hd⟩
    · refine ⟨buf, .inl ?_, hi⟩
      exact (bufStep_refused he (fun h => ⟨(hc h).2.2.2.2.2.2.1, (hc h).2.2.2.2.2.2.2⟩)).symm
    · by_cases h1 : c = 0xef#8
      · subst h1
        have : dispatch E I s 0xef#8 (fun i => d.getD i 0#8) d.length
            = some (updSendData s (fun i => d.getD i 0#8) d.length) := rfl
        rw [this] at hd
        obtain rfl := Option.some.inj hd
        unfold updSendData
        rw [hi.pos]
        have hfit := hi.fits
        by_cases ho : buf.length + d.length > bufferSize
        · rw [if_pos ho]
          refine ⟨buf, .inl ?_, hi⟩
          unfold bufStep
          dsimp only
          rw [if_pos rfl, if_neg (by decide)]
        · rw [if_neg ho]
          refine ⟨buf ++ d, .inl ?_, ?_, ?_, ?_, ?_, hi.decomp⟩
          · unfold bufStep
            dsimp only
            rw [if_pos rfl, if_pos (show lastError UDP_IAP_SUCCESS = ok from rfl)]
          · have hb : bufferSize = 1265 := rfl
            simp only [BitVec.toNat_add, BitVec.toNat_ofNat, hi.pos, List.length_append]
            omega
          · rw [List.length_append, bytesAt_append, Nat.zero_add]
            congr 1
            · have hd' : bytesAt s.ram 0 buf.length = buf := hi.data
              rw [← hd', bytesAt_length]
              apply bytesAt_congr
              intro i hi'
              unfold Decomp.blit
              dsimp only
              rw [Nat.zero_add, if_neg (by omega)]
            · have : bytesAt (fun i => d.getD i 0#8) 0 d.length = d := bytesAt_getD d
              conv => rhs; rw [← this]
              apply bytesAt_shift
              intro i hi'
              unfold Decomp.blit
              dsimp only
              rw [if_pos (by omega)]
              congr 1
              omega
          · rw [List.length_append]; omega
          · intro i hge
            unfold Decomp.blit
            dsimp only
            rw [if_neg (by omega)]
            exact hi.beyond i hge
      · by_cases h2 : c = 0xbf#8
        · subst h2
          have : dispatch E I s 0xbf#8 (fun i => d.getD i 0#8) d.length
              = some (updUnlockDevice E s (fun i => d.getD i 0#8) d.length) := rfl
          rw [this] at hd
          obtain rfl := Option.some.inj hd
          unfold updUnlockDevice
          dsimp only
          have hb : ∀ e, lastError e ≠ ok → bufStep buf (0xbf#8 :: d, lastError e) = buf := by
            intro e he
            unfold bufStep
            dsimp only
            rw [if_neg (by decide), if_pos rfl, if_neg he]
          split
          · exact ⟨buf, .inl (hb _ (by decide)).symm, hi⟩
          · split
            · rename_i hne
              refine ⟨buf, .inl (hb _ ?_).symm, hi.same rfl rfl hi.decomp⟩
              intro he
              simp only [lastError, ok, status, Resp.mk.injEq, List.cons.injEq, and_true, true_and] at he
              exact hne he
            · split
              · exact ⟨buf, .inl (hb _ (by decide)).symm, hi.same rfl rfl hi.decomp⟩
              · refine ⟨[], .inl ?_, hi.cleared rfl rfl hi.decomp⟩
                unfold bufStep
                dsimp only
                rw [if_neg (by decide), if_pos rfl, if_pos (show lastError UDP_IAP_SUCCESS = ok from rfl)]
        · by_cases h3 : c = 0xee#8
          · subst h3
            have : dispatch E I s 0xee#8 (fun i => d.getD i 0#8) d.length
                = some (updProgram E s (fun i => d.getD i 0#8)) := rfl
            rw [this] at hd
            obtain rfl := Option.some.inj hd
            have hbs : ∀ x, bufStep buf (0xee#8 :: d, x) =
                (if executed x = true ∨ x = status 0x4f#8 ∨ x = status 0x50#8 then [] else buf) := by
              intro x
              unfold bufStep
              dsimp only
              rw [if_neg (by decide), if_neg (by decide), if_pos rfl]
            unfold updProgram
            dsimp only
            split
            · exact ⟨buf, .inl (by rw [hbs]; dsimp only; rw [if_neg (by decide)]), hi⟩
            · rename_i hal
              split
              · exact ⟨buf, .inl (by rw [hbs]; dsimp only; rw [if_neg (by decide)]), hi⟩
              · rename_i hcnt
                split
                · exact ⟨[], .inl (by rw [hbs]; dsimp only; rw [if_pos (by decide)]), hi.cleared rfl rfl hi.decomp⟩
                · split
                  · exact ⟨[], .inl (by rw [hbs]; dsimp only; rw [if_pos (by decide)]), hi.cleared rfl rfl hi.decomp⟩
                  · split
                    · exact ⟨buf, .inl (by rw [hbs]; dsimp only; rw [if_neg (by decide)]), hi⟩
                    · refine ⟨[], ?_, hi.cleared rfl rfl hi.decomp⟩
                      have hal' : addressAllowedToProgram E (load32 (fun i => d.getD i 0#8) 2)
                          (BitVec.ofNat 32 (load16 (fun i => d.getD i 0#8) 0).toNat) false = true := by
                        simpa using hal
                      obtain ⟨hpos, hT⟩ := target_of_allowed L (by omega) hal'
                      rcases hT with hT | hT
                      · left
                        rw [hbs, if_pos (.inl (executed_status (programAll_spec L _ _ _ _ hT hpos).1))]
                      · rcases (programAll_beyond s.hw s.ram _ _ hpos hT).2.2 with hx | hx
                        · right
                          rw [hx]
                          exact ⟨rfl, rfl, rfl⟩
                        · left
                          rw [hbs, if_pos (.inl (executed_status hx))]
          · by_cases h4 : c = 0xe9#8 ∨ c = 0xea#8
            · have hbs : ∀ e, EraseStatus e → bufStep buf (c :: d, lastError e) = [] := by
                intro e he
                unfold bufStep
                dsimp only
                rw [if_neg h1, if_neg h2, if_neg h3, if_pos h4, if_neg (eraseStatus_not he)]
              rcases h4 with h4 | h4
              · subst h4
                have : dispatch E I s 0xe9#8 (fun i => d.getD i 0#8) d.length
                    = some (updEraseAddressRange E s (fun i => d.getD i 0#8)) := rfl
                rw [this] at hd
                obtain rfl := Option.some.inj hd
                exact ⟨[], .inl (hbs _ (eraseRange_status _ _ _ _ _)).symm, hi.cleared rfl rfl hi.decomp⟩
              · subst h4
                have : dispatch E I s 0xea#8 (fun i => d.getD i 0#8) d.length
                    = some (updEraseFullFlash E s) := rfl
                rw [this] at hd
                obtain rfl := Option.some.inj hd
                exact ⟨[], .inl (hbs _ (eraseRange_status _ _ _ _ _)).symm, hi.cleared rfl rfl hi.decomp⟩
            · by_cases h6 : c = 0xeb#8
              · subst h6
                have : dispatch E I s 0xeb#8 (fun i => d.getD i 0#8) d.length
                    = some (updProgramDecompressedDataToFlash E s (fun i => d.getD i 0#8)) := rfl
                rw [this] at hd
                obtain rfl := Option.some.inj hd
                have hbs : ∀ x, bufStep buf (0xeb#8 :: d, x) =
                    (if executed x = true then [] else buf) := by
                  intro x
                  unfold bufStep
                  dsimp only
                  rw [if_neg (by decide), if_neg (by decide), if_neg (by decide), if_neg (by decide), if_pos rfl]
                unfold updProgramDecompressedDataToFlash
                split
                · exact ⟨buf, .inl (by rw [hbs]; dsimp only; rw [if_neg (by decide)]), hi⟩
                · split
                  · exact ⟨buf, .inl (by rw [hbs]; dsimp only; rw [if_neg (by decide)]), hi⟩
                  · rename_i hal
                    have hal' : addressAllowedToProgram E s.decomp.startAddrOfPageToBeFlashed
                        (BitVec.ofNat 32 s.decomp.bytesToFlash) false = true := by simpa using hal
                    split
                    · exact ⟨buf, .inl (by rw [hbs]; dsimp only; rw [if_neg (by decide)]), hi⟩
                    · refine ⟨[], .inl ?_, hi.cleared rfl rfl ?_⟩
                      · rw [hbs, if_pos (executed_status (pageCompleted_status L hi.decomp _ hal'))]
                      · have h := decomp_allowed L hi.decomp hal'
                        have hs := L.size
                        refine ⟨?_, Nat.zero_le _⟩
                        show (s.decomp.startAddrOfPageToBeFlashed + 0x100#32).toNat ≤ E.top
                        rw [BitVec.toNat_add]
                        simp only [BitVec.toNat_ofNat]
                        omega
              · have hbs : bufStep buf (c :: d, r.2) = buf := by
                  unfold bufStep
                  dsimp only
                  rw [if_neg h1, if_neg h2, if_neg h3, if_neg h4, if_neg h6]
                have := dispatch_other hi.decomp hd h1 h2 h3 (fun h => h4 (.inl h)) (fun h => h4 (.inr h)) h6
                exact ⟨buf, .inl hbs.symm, hi.same this.1 this.2.1 this.2.2⟩

theorem init_inv {E : Env} (L : Layout E) (hw : Hw) (ram : Nat → Byte) :
    BufInv E ram (init E hw ram) [] := by
  have hr := L.room
  refine ⟨rfl, rfl, by decide, fun _ _ => rfl, ?_, Nat.zero_le _⟩
  show (getFirmwareStartAddress E hw.flash (loadBlock hw.flash _)).toNat ≤ E.top
  unfold getFirmwareStartAddress
  split
  · rename_i h
    unfold checkApplication at h
    split at h
    · exact absurd h (by simp)
    · rename_i h1
      have h2 : ¬ (loadBlock hw.flash (bootDescriptorBlockAddress E).toNat).startAddress
        > flashLastAddress E := fun h' => h1 (.inr h')
      have := flashLast_eq L
      rw [GT.gt, BitVec.lt_def] at h2
      omega
  · rw [appFirst_eq L]
    have := appFirst_le E
    omega

theorem run_buf {E : Env} (L : Layout E) {I : Info} {ram0 : Nat → Byte} (ms : List (List Byte)) :
    ∀ {s : State} {conv : List (List Byte × Resp)} {buf : List Byte} {s' : State} {rs : List Resp},
    (∀ m ∈ ms, Telegram m) → Buffered conv buf → BufInv E ram0 s buf → run E I s ms = some (s', rs) →
    ∃ buf', Buffered (conv ++ ms.zip rs) buf' ∧ BufInv E ram0 s' buf' := by
  induction ms with
  | nil =>
    intro s conv buf s' rs _ hb hi h
    have : (s, []) = (s', rs) := Option.some.inj h
    obtain ⟨rfl, rfl⟩ := Prod.mk.inj this
    exact ⟨buf, by simpa using hb, hi⟩
  | cons m ms ih =>
    intro s conv buf s' rs hm hb hi h
    obtain ⟨r1, r2, e1, e2, e3⟩ := run_cons h
    obtain ⟨rfl, rfl⟩ := Prod.mk.inj e3
    obtain ⟨buf1, hb1, hi1⟩ := bufInv_step L hi (hm m List.mem_cons_self) e1
    obtain ⟨buf2, hb2, hi2⟩ := ih (fun x hx => hm x (List.mem_cons_of_mem _ hx)) (.step hb hb1) hi1 e2
    refine ⟨buf2, ?_, hi2⟩
    rw [List.append_assoc] at hb2
    simpa using hb2

end Verif.Boot
