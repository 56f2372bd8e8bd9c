import Verif.Boot.TelegramSpec
import Verif.Boot.StepLemmas
import Verif.Boot.BufLemmas

/-!
# C107: lemmas
-/

namespace Verif.Boot
open Verif.Boot.Spec Knx Verif.Iap

/-! ## A message is executed from its own bytes -/

theorem same_congr {E a b : Nat → Byte} {n : Nat} (h : ∀ i, i < n → a i = b i) : same E a n = same E b n := by
  unfold same
  apply Bool.eq_iff_iff.mpr
  simp only [List.all_eq_true, List.mem_range]
  exact ⟨fun k i hi => by rw [← h i hi]; exact k i hi, fun k i hi => by rw [h i hi]; exact k i hi⟩

theorem load32_below {a b : Nat → Byte} {o n : Nat} (h : ∀ i, i < n → a i = b i) (ho : o + 4 ≤ n) :
    load32 a o = load32 b o := by
  unfold load32
  rw [h _ (by omega), h _ (by omega), h _ (by omega), h _ (by omega)]

theorem load16_below {a b : Nat → Byte} {o n : Nat} (h : ∀ i, i < n → a i = b i) (ho : o + 2 ≤ n) :
    load16 a o = load16 b o := by
  unfold load16
  rw [h _ (by omega), h _ (by omega)]

theorem blit_congr {m a b : Nat → Byte} {p n : Nat} (h : ∀ i, i < n → a i = b i) :
    Decomp.blit m p a 0 n = Decomp.blit m p b 0 n := by
  funext j
  unfold Decomp.blit
  by_cases hj : p ≤ j ∧ j < p + n
  · rw [if_pos hj, if_pos hj, h _ (by omega)]
  · rw [if_neg hj, if_neg hj]

theorem handle_congr (E : Env) (I : Info) (s : State) (a b : Nat → Byte) (n : U32)
    (h : ∀ i, i < n.toNat → a i = b i) : handle E I s a n = handle E I s b n := by
  unfold handle
  by_cases h0 : n.toNat < 1
  · rw [if_pos h0, if_pos h0]
  · rw [if_neg h0, if_neg h0]
    have e0 : a 0 = b 0 := h 0 (by omega)
    rw [e0]
    dsimp only
    by_cases h1 : (code2UPDCommand (b 0)).1 = 0x00#8
    · rw [if_pos h1, if_pos h1]
    rw [if_neg h1, if_neg h1]
    by_cases h2 : n.toNat - 1 < (code2UPDCommand (b 0)).2.1 ∨ n.toNat - 1 > (code2UPDCommand (b 0)).2.2
    · rw [if_pos h2, if_pos h2]
    rw [if_neg h2, if_neg h2]
    have h' : ∀ i, i < n.toNat - 1 → (fun i => a (i + 1)) i = (fun i => b (i + 1)) i :=
      fun i hi => h (i + 1) (by omega)
    generalize (fun i => a (i + 1)) = a' at h'
    generalize (fun i => b (i + 1)) = b' at h'
    have hd : dispatch E I s (code2UPDCommand (b 0)).1 a' (n.toNat - 1)
        = dispatch E I s (code2UPDCommand (b 0)).1 b' (n.toNat - 1) := by
      rcases code2_spec (b 0) with hc | hc
      · exact absurd (by rw [hc]) h1
      generalize b 0 = c at *
      generalize n.toNat - 1 = k at *
      rw [hc]
      unfold dispatch
      by_cases k1 : c = 0xbf#8
      · rw [if_pos k1, if_pos k1]
        unfold updUnlockDevice
        by_cases k2 : k ≠ 12
        · rw [if_pos k2, if_pos k2]
        · rw [if_neg k2, if_neg k2]
          have hk : k = 12 := by omega
          subst hk
          have hr : ∀ i, i < 12 → reverseGroups a' i = reverseGroups b' i :=
            fun i hi => h' _ (by omega)
          rw [same_congr h', same_congr hr]
      rw [if_neg k1, if_neg k1]
      by_cases k1 : c = 0xbe#8
      · rw [if_pos k1, if_pos k1]
      rw [if_neg k1, if_neg k1]
      by_cases k1 : c = 0xbc#8
      · rw [if_pos k1, if_pos k1]
      rw [if_neg k1, if_neg k1]
      by_cases k1 : c = 0xef#8
      · rw [if_pos k1, if_pos k1]
        unfold updSendData
        rw [blit_congr h']
      rw [if_neg k1, if_neg k1]
      by_cases k1 : c = 0xee#8
      · rw [if_pos k1, if_pos k1]
        have hlo : (code2UPDCommand c).2.1 = 10 := by subst k1; decide
        unfold updProgram
        rw [load16_below (o := 0) h' (by omega), load32_below (o := 2) h' (by omega),
          load32_below (o := 6) h' (by omega)]
      rw [if_neg k1, if_neg k1]
      by_cases k1 : c = 0xec#8
      · rw [if_pos k1, if_pos k1]
        unfold updSendDataToDecompress
        have hb : bytesAt a' 0 k = bytesAt b' 0 k :=
          bytesAt_congr (fun i hi => by rw [Nat.zero_add]; exact h' i hi)
        rw [hb]
      rw [if_neg k1, if_neg k1]
      by_cases k1 : c = 0xeb#8
      · rw [if_pos k1, if_pos k1]
        have hlo : (code2UPDCommand c).2.1 = 4 := by subst k1; decide
        unfold updProgramDecompressedDataToFlash
        rw [load32_below (o := 0) h' (by omega)]
      rw [if_neg k1, if_neg k1]
      by_cases k1 : c = 0xea#8
      · rw [if_pos k1, if_pos k1]
      rw [if_neg k1, if_neg k1]
      by_cases k1 : c = 0xe9#8
      · rw [if_pos k1, if_pos k1]
        have hlo : (code2UPDCommand c).2.1 = 8 := by subst k1; decide
        unfold updEraseAddressRange
        rw [load32_below (o := 0) h' (by omega), load32_below (o := 4) h' (by omega)]
      rw [if_neg k1, if_neg k1]
      by_cases k1 : c = 0xe7#8
      · rw [if_pos k1, if_pos k1]
      rw [if_neg k1, if_neg k1]
      by_cases k1 : c = 0xdf#8
      · rw [if_pos k1, if_pos k1]
      rw [if_neg k1, if_neg k1]
      by_cases k1 : c = 0xed#8
      · rw [if_pos k1, if_pos k1]
        have hlo : (code2UPDCommand c).2.1 = 8 := by subst k1; decide
        unfold updUpdateBootDescriptorBlock
        rw [load32_below (o := 0) h' (by omega), load32_below (o := 4) h' (by omega)]
      rw [if_neg k1, if_neg k1]
      by_cases k1 : c = 0xba#8
      · rw [if_pos k1, if_pos k1]
      rw [if_neg k1, if_neg k1]
      by_cases k1 : c = 0xb8#8
      · rw [if_pos k1, if_pos k1]
        have hlo : (code2UPDCommand c).2.1 = 2 := by subst k1; decide
        unfold updRequestBootloaderIdentity
        rw [h' 0 (by omega), h' 1 (by omega)]
      rw [if_neg k1, if_neg k1]
    rw [hd]

theorem message_length (t : Buf) (len : Nat) : (message t len).length = len - 9 := by
  simp [message]

theorem message_getD (t : Buf) (len i : Nat) (h : i < len - 9) : (message t len).getD i 0#8 = t (8 + i) := by
  simp [message, h]

/-- The whole telegram goes to `receive` as its data bytes. -/
theorem usermsg_eq (E : Env) (I : Info) (s : State) (t : Buf) (len : Nat) (h9 : 9 ≤ len) (h255 : len ≤ 255) :
    processUsermsg E I s t (BitVec.ofNat 8 len) = receive E I s (message t len) := by
  unfold processUsermsg receive
  have hn : (BitVec.ofNat 8 len).setWidth 32 - 8#32 - 1#32 = BitVec.ofNat 32 (len - 9) := by
    apply BitVec.eq_of_toNat_eq
    simp only [BitVec.toNat_sub, BitVec.toNat_setWidth, BitVec.toNat_ofNat]
    omega
  rw [hn, message_length]
  apply handle_congr
  intro i hi
  rw [BitVec.toNat_ofNat, Nat.mod_eq_of_lt (by omega)] at hi
  rw [message_getD _ _ _ hi, Nat.add_comm]

/-- A telegram too short for a service: an error answer, nothing changes. -/
theorem usermsg_short (E : Env) (I : Info) (s : State) (t : Buf) (len : Nat) (h9 : len < 9) :
    processUsermsg E I s t (BitVec.ofNat 8 len) =
      some (s, lastError (if (code2UPDCommand (t 8)).1 = 0#8 then UDP_INVALID else UDP_INVALID_DATA)) := by
  unfold processUsermsg handle
  have hn : ((BitVec.ofNat 8 len).setWidth 32 - 8#32 - 1#32).toNat = 2 ^ 32 - 9 + len := by
    simp only [BitVec.toNat_sub, BitVec.toNat_setWidth, BitVec.toNat_ofNat]
    omega
  rw [hn, if_neg (by omega)]
  dsimp only
  rw [Nat.zero_add]
  by_cases h1 : (code2UPDCommand (t 8)).1 = 0x00#8
  · rw [if_pos h1, if_pos h1]
  · rw [if_neg h1, if_neg h1, if_pos]
    right
    have : ∀ c : Byte, (code2UPDCommand c).2.2 ≤ 255 := by decide +kernel
    have := this (t 8)
    omega

/-! ## Answers -/

theorem storeBytes_get (l : List Byte) : ∀ (b : Buf) (p i : Nat),
    storeBytes b p l i = if p ≤ i ∧ i < p + l.length then l.getD (i - p) 0#8 else b i := by
  induction l with
  | nil => intro b p i; rw [if_neg (by simp)]; rfl
  | cons v vs ih =>
    intro b p i
    unfold storeBytes
    rw [ih, List.length_cons]
    by_cases h1 : i = p
    · subst h1
      rw [if_neg (by omega), if_pos (by omega), upd_same, Nat.sub_self]; rfl
    · rw [upd_ne _ _ _ _ h1]
      by_cases h2 : p + 1 ≤ i ∧ i < p + 1 + vs.length
      · rw [if_pos h2, if_pos (by omega), show i - p = (i - (p + 1)) + 1 by omega, List.getD_cons_succ]
      · rw [if_neg h2, if_neg (by omega)]

/-- All answers. -/
theorem dispatch_answers (E : Env) (I : Info) (s s' : State) (c : Byte) (d : Nat → Byte) (n : Nat) (r : Resp)
    (h : dispatch E I s c d n = some (s', r)) : (r.cmd, r.payload.length) ∈ answerBytes := by
  have st : ∀ e, ((lastError e).cmd, (lastError e).payload.length) ∈ answerBytes := by
    intro e; show ((0xdc#8, 1) : Byte × Nat) ∈ answerBytes; decide
  have len : ∀ (m : Nat → Byte) (a n : Nat), (bytesAt m a n).length = n := by intro m a n; simp [bytesAt]
  unfold dispatch at h
  by_cases k1 : c = 0xbf#8
  · rw [if_pos k1] at h
    unfold updUnlockDevice at h
    dsimp only at h
    repeat' split at h
    all_goals (obtain ⟨-, rfl⟩ := Prod.mk.inj (Option.some.inj h); exact st _)
  rw [if_neg k1] at h
  by_cases k1 : c = 0xbe#8
  · rw [if_pos k1] at h
    unfold updRequestUID at h
    dsimp only at h
    split at h
    · obtain ⟨-, rfl⟩ := Prod.mk.inj (Option.some.inj h); exact st _
    · obtain ⟨-, rfl⟩ := Prod.mk.inj (Option.some.inj h)
      show ((0xbd#8 : Byte), (bytesAt E.uid 0 12).length) ∈ answerBytes
      rw [len]; decide
  rw [if_neg k1] at h
  by_cases k1 : c = 0xbc#8
  · rw [if_pos k1] at h
    obtain ⟨-, rfl⟩ := Prod.mk.inj (Option.some.inj h)
    unfold updAppVersionRequest
    dsimp only
    split
    · rw [len]; decide
    · decide
  rw [if_neg k1] at h
  by_cases k1 : c = 0xef#8
  · rw [if_pos k1] at h
    unfold updSendData at h
    split at h
    all_goals (obtain ⟨-, rfl⟩ := Prod.mk.inj (Option.some.inj h); exact st _)
  rw [if_neg k1] at h
  by_cases k1 : c = 0xee#8
  · rw [if_pos k1] at h
    unfold updProgram at h
    dsimp only at h
    repeat' split at h
    all_goals (obtain ⟨-, rfl⟩ := Prod.mk.inj (Option.some.inj h); exact st _)
  rw [if_neg k1] at h
  by_cases k1 : c = 0xec#8
  · rw [if_pos k1] at h
    unfold updSendDataToDecompress at h
    split at h
    · obtain ⟨-, rfl⟩ := Prod.mk.inj (Option.some.inj h); exact st _
    · obtain ⟨x, -, hx⟩ := Option.map_eq_some_iff.mp h
      obtain ⟨-, rfl⟩ := Prod.mk.inj hx; exact st _
  rw [if_neg k1] at h
  by_cases k1 : c = 0xeb#8
  · rw [if_pos k1] at h
    unfold updProgramDecompressedDataToFlash at h
    dsimp only at h
    repeat' split at h
    all_goals (obtain ⟨-, rfl⟩ := Prod.mk.inj (Option.some.inj h); exact st _)
  rw [if_neg k1] at h
  by_cases k1 : c = 0xea#8
  · rw [if_pos k1] at h
    obtain ⟨-, rfl⟩ := Prod.mk.inj (Option.some.inj h); exact st _
  rw [if_neg k1] at h
  by_cases k1 : c = 0xe9#8
  · rw [if_pos k1] at h
    obtain ⟨-, rfl⟩ := Prod.mk.inj (Option.some.inj h); exact st _
  rw [if_neg k1] at h
  by_cases k1 : c = 0xe7#8
  · rw [if_pos k1] at h
    obtain ⟨-, rfl⟩ := Prod.mk.inj (Option.some.inj h); exact st _
  rw [if_neg k1] at h
  by_cases k1 : c = 0xdf#8
  · rw [if_pos k1] at h
    obtain ⟨-, rfl⟩ := Prod.mk.inj (Option.some.inj h)
    show ((0xde#8, 4) : Byte × Nat) ∈ answerBytes; decide
  rw [if_neg k1] at h
  by_cases k1 : c = 0xed#8
  · rw [if_pos k1] at h
    unfold updUpdateBootDescriptorBlock at h
    dsimp only at h
    repeat' split at h
    all_goals (obtain ⟨-, rfl⟩ := Prod.mk.inj (Option.some.inj h); exact st _)
  rw [if_neg k1] at h
  by_cases k1 : c = 0xba#8
  · rw [if_pos k1] at h
    obtain ⟨-, rfl⟩ := Prod.mk.inj (Option.some.inj h)
    dsimp only
    rw [len]; decide
  rw [if_neg k1] at h
  by_cases k1 : c = 0xb8#8
  · rw [if_pos k1] at h
    obtain ⟨-, rfl⟩ := Prod.mk.inj (Option.some.inj h)
    unfold updRequestBootloaderIdentity
    split
    · show ((0xb7#8, 10) : Byte × Nat) ∈ answerBytes; decide
    · show ((0xb6#8, 2) : Byte × Nat) ∈ answerBytes; decide
  rw [if_neg k1] at h
  by_cases k1 : c = 0xe8#8
  · rw [if_pos k1] at h
    obtain ⟨-, rfl⟩ := Prod.mk.inj (Option.some.inj h); exact st _
  rw [if_neg k1] at h
  obtain ⟨-, rfl⟩ := Prod.mk.inj (Option.some.inj h); exact st _

theorem handle_answers (E : Env) (I : Info) (s s' : State) (d : Nat → Byte) (n : U32) (r : Resp)
    (h : handle E I s d n = some (s', r)) : (r.cmd, r.payload.length) ∈ answerBytes := by
  have st : ∀ e, ((lastError e).cmd, (lastError e).payload.length) ∈ answerBytes := by
    intro e; show ((0xdc#8, 1) : Byte × Nat) ∈ answerBytes; decide
  unfold handle at h
  dsimp only at h
  repeat' split at h
  all_goals first
    | (obtain ⟨-, rfl⟩ := Prod.mk.inj (Option.some.inj h); exact st _)
    | exact dispatch_answers _ _ _ _ _ _ _ _ h

theorem answer_len {r : Resp} (h : (r.cmd, r.payload.length) ∈ answerBytes) : r.payload.length ≤ 12 := by
  have : ∀ e ∈ answerBytes, e.2 ≤ 12 := by decide
  exact this _ h

theorem response_isAnswer (sb : Buf) (r : Resp) (h : r.payload.length ≤ 13) :
    IsAnswer sb (writeResponse sb r) r := by
  have k : ∀ i, writeResponse sb r i =
      if 9 ≤ i ∧ i < 9 + r.payload.length then r.payload.getD (i - 9) 0#8
      else if i = 8 then r.cmd else if i = 7 then 0xFE#8 else if i = 6 then 0x02#8
      else if i = 5 then 0x60#8 + BitVec.ofNat 8 (2 + r.payload.length) else sb i := by
    intro i
    unfold writeResponse
    rw [storeBytes_get]
    by_cases h1 : 9 ≤ i ∧ i < 9 + r.payload.length
    · rw [if_pos h1, if_pos h1]
    · rw [if_neg h1, if_neg h1]
      unfold prepareReturnTelegram setApciCommand
      rw [if_neg (by omega), Nat.add_comm r.payload.length 2]
      by_cases h8 : i = 8
      · subst h8; rw [upd_same, if_pos rfl]
      · rw [upd_ne _ _ _ _ h8, if_neg h8]
        by_cases h7 : i = 7
        · subst h7; rw [upd_same, if_pos rfl]; decide
        · rw [upd_ne _ _ _ _ h7, if_neg h7]
          by_cases h6 : i = 6
          · subst h6; rw [upd_same, if_pos rfl]; decide
          · rw [upd_ne _ _ _ _ h6, if_neg h6]
            by_cases h5 : i = 5
            · subst h5; rw [upd_same, if_pos rfl]
            · rw [upd_ne _ _ _ _ h5, if_neg h5]
  have hlen : telegramSize (writeResponse sb r) = 9 + r.payload.length := by
    unfold telegramSize
    rw [k 5, if_neg (by omega), if_neg (by decide), if_neg (by decide), if_neg (by decide), if_pos rfl]
    have : ∀ m : Nat, m ≤ 13 → 7 + ((0x60#8 + BitVec.ofNat 8 (2 + m)) &&& 15#8).toNat = 9 + m := by decide
    exact this _ h
  unfold IsAnswer
  rw [hlen]
  unfold bytes
  rw [List.range_add, List.map_append, List.map_map]
  have e2 : (List.range r.payload.length).map (writeResponse sb r ∘ fun x => 9 + x) = r.payload := by
    have h2 := bytesAt_getD r.payload
    unfold bytesAt at h2
    conv => rhs; rw [← h2]
    apply List.map_congr_left
    intro j hj
    have hj := List.mem_range.mp hj
    show writeResponse sb r (9 + j) = _
    rw [k, if_pos (by omega), Nat.add_sub_cancel_left, Nat.zero_add]
  have e1 : (List.range 9).map (writeResponse sb r) = (List.range 5).map sb ++
      [0x60#8 + BitVec.ofNat 8 (2 + r.payload.length), 0x02#8, 0xFE#8, r.cmd] := by
    simp only [List.range_succ, List.range_zero, List.map_nil, List.map_cons,
      List.nil_append, List.cons_append, k]
    simp
  rw [e2, e1, List.append_assoc]

end Verif.Boot
