import Verif.Boot.FullTool
import Verif.Boot.PropsTool

/-! What the requests of the full update do, and what a chain of attempts can leave behind. -/

namespace Verif.Boot
open Verif.Iap Spec Tool

/-! ## Plumbing -/

theorem andThen_some {α β : Type} {x : Ended α} {f : Link → α → Ended β} {c : Link} {b : β}
    (h : andThen x f = some (c, some b)) : ∃ c1 a, x = some (c1, some a) ∧ f c1 a = some (c, some b) := by
  cases x with
  | none => exact absurd h (by simp [andThen])
  | some p =>
    obtain ⟨c1, o⟩ := p
    cases o with
    | none => exact absurd h (by simp [andThen])
    | some a => exact ⟨c1, a, rfl, h⟩

theorem send_rule {E : Env} {I : Info} {ch : Channel} {m : List Byte} {P : State → Prop}
    (hP : ∀ s r, P s → receive E I s m = some r → P r.1) :
    ∀ (n : Nat) (c : Link) (lost : Bool) (c' : Link) (r : Resp) (b : Bool), P c.dev →
      sendWithRetry E I ch m n c lost = some (c', some (r, b)) →
      ∃ s, P s ∧ receive E I s m = some (c'.dev, r) ∧ (b = false → s = c.dev ∧ lost = false) := by
  intro n
  induction n with
  | zero =>
    intro c lost c' r b _ h
    exact absurd h (by simp [sendWithRetry])
  | succ n ih =>
    intro c lost c' r b hc h
    unfold sendWithRetry at h
    have key : (∃ s', receive E I c.dev m = some s' ∧ attempt E I ch c m = some (⟨s'.1, c.pos + 1⟩, some s'.2)) ∨
        (∃ c1, P c1.dev ∧ attempt E I ch c m = some (c1, none)) ∨ attempt E I ch c m = none := by
      unfold attempt
      cases hr : receive E I c.dev m with
      | none =>
        cases ch c.pos with
        | answered => exact .inr (.inr rfl)
        | answerLost => exact .inr (.inr rfl)
        | requestLost => exact .inr (.inl ⟨⟨c.dev, c.pos + 1⟩, hc, rfl⟩)
      | some s' =>
        cases ch c.pos with
        | answered => exact .inl ⟨s', rfl, rfl⟩
        | answerLost => exact .inr (.inl ⟨_, hP _ _ hc hr, rfl⟩)
        | requestLost => exact .inr (.inl ⟨⟨c.dev, c.pos + 1⟩, hc, rfl⟩)
    rcases key with ⟨s', h1, h2⟩ | ⟨c1, h1, h2⟩ | h2
    · rw [h2] at h
      obtain ⟨rfl, h4⟩ := Prod.mk.inj (Option.some.inj h)
      obtain ⟨rfl, rfl⟩ := Prod.mk.inj (Option.some.inj h4)
      exact ⟨c.dev, hc, h1, fun h => ⟨rfl, h⟩⟩
    · rw [h2] at h
      obtain ⟨s, q1, q2, q3⟩ := ih c1 true c' r b h1 h
      exact ⟨s, q1, q2, fun h => absurd (q3 h).2 (by decide)⟩
    · rw [h2] at h
      exact absurd h (by simp)

theorem checkResult_status (e : Byte) : checkResult (status e) = e := rfl

/-! ## The requests, one by one -/

theorem recv_sendData {E : Env} (L : Layout E) {I : Info} {ram0 : Nat → Byte} {s : State} {buf d : List Byte}
    (hi : BufInv E ram0 s buf) (hd : d.length ≤ 13) {r : State × Resp}
    (h : receive E I s (msgSendData d) = some r) :
    (∃ e, r.2 = status e) ∧ r.1.hw = s.hw ∧
      ((r.2 = ok ∧ BufInv E ram0 r.1 (buf ++ d)) ∨ (r.2 ≠ ok ∧ BufInv E ram0 r.1 buf)) := by
  have hm : Telegram (msgSendData d) := by
    unfold Telegram msgSendData; rw [List.length_cons]; omega
  obtain ⟨buf', hb, hi'⟩ := bufInv_step L hi hm h
  have hb' : buf' = if r.2 = ok then buf ++ d else buf := by
    rcases hb with hb | ⟨hb, -⟩
    · exact hb
    · exact absurd (Option.some.inj (show some 0xef#8 = some 0xee#8 from hb)) (by decide)
  refine ⟨?_, ?_, ?_⟩
  · rcases receive_cons (show d.length < 255 by omega) h with ⟨e, rfl, -⟩ | ⟨-, -, -, -, hq⟩
    · exact ⟨e, rfl⟩
    · have : dispatch E I s 0xef#8 (fun i => d.getD i 0#8) d.length
          = some (updSendData s (fun i => d.getD i 0#8) d.length) := rfl
      rw [this] at hq
      obtain rfl := Option.some.inj hq
      unfold updSendData
      split <;> exact ⟨_, rfl⟩
  · rcases receive_cons (show d.length < 255 by omega) h with ⟨e, rfl, -⟩ | ⟨-, -, -, -, hq⟩
    · rfl
    · have : dispatch E I s 0xef#8 (fun i => d.getD i 0#8) d.length
          = some (updSendData s (fun i => d.getD i 0#8) d.length) := rfl
      rw [this] at hq
      obtain rfl := Option.some.inj hq
      unfold updSendData
      split <;> rfl
  · by_cases ho : r.2 = ok
    · rw [if_pos ho] at hb'; rw [← hb']; exact .inl ⟨ho, hi'⟩
    · rw [if_neg ho] at hb'; rw [← hb']; exact .inr ⟨ho, hi'⟩

theorem recv_program {E : Env} (L : Layout E) {I : Info} {ram0 : Nat → Byte} {s : State} {buf : List Byte}
    (hi : BufInv E ram0 s buf) (n : Word) (a crc : U32) {r : State × Resp}
    (h : receive E I s (msgProgram n a crc) = some r) :
    (∃ e, r.2 = status e) ∧ (BufInv E ram0 r.1 buf ∨ BufInv E ram0 r.1 []) ∧
      (∀ x, x < a.toNat → r.1.hw.flash x = s.hw.flash x) ∧
      ((r.2 = status 0x4f#8 ∨ r.2 = status 0x50#8 ∨ r.2 = ok) → BufInv E ram0 r.1 []) ∧
      (r.2 = ok → buf.length = n.toNat ∧ ∀ i, i < n.toNat → r.1.hw.flash (a.toNat + i) = buf.getD i 0#8) := by
  have hlen : (le16 n ++ le32 a ++ le32 crc).length < 255 := show 10 < 255 by omega
  have hm : Telegram (msgProgram n a crc) := (by decide : 11 ≤ 255)
  obtain ⟨buf', hb, hi'⟩ := bufInv_step L hi hm h
  have hb' : buf' = bufStep buf (msgProgram n a crc, r.2) ∨ buf' = [] := by
    rcases hb with hb | ⟨-, -, hb⟩
    · exact .inl hb
    · exact .inr hb
  have hbs : bufStep buf (msgProgram n a crc, r.2)
      = if executed r.2 = true ∨ r.2 = status 0x4f#8 ∨ r.2 = status 0x50#8 then [] else buf := rfl
  rw [hbs] at hb'
  have hclear : (executed r.2 = true ∨ r.2 = status 0x4f#8 ∨ r.2 = status 0x50#8) → BufInv E ram0 r.1 [] := by
    intro hc
    rw [if_pos hc] at hb'
    rcases hb' with rfl | rfl <;> exact hi'
  refine ⟨?_, ?_, ?_, ?_, ?_⟩
  · rcases receive_cons hlen h with ⟨e, rfl, -⟩ | ⟨-, -, -, -, hq⟩
    · exact ⟨e, rfl⟩
    · have : dispatch E I s 0xee#8 (fun i => (le16 n ++ le32 a ++ le32 crc).getD i 0#8)
          (le16 n ++ le32 a ++ le32 crc).length
          = some (updProgram E s (fun i => (le16 n ++ le32 a ++ le32 crc).getD i 0#8)) := rfl
      rw [this] at hq
      obtain rfl := Option.some.inj hq
      unfold updProgram
      dsimp only
      split
      · exact ⟨_, rfl⟩
      split
      · exact ⟨_, rfl⟩
      split
      · exact ⟨_, rfl⟩
      split
      · exact ⟨_, rfl⟩
      split
      · exact ⟨_, rfl⟩
      · exact ⟨_, rfl⟩
  · by_cases hc : executed r.2 = true ∨ r.2 = status 0x4f#8 ∨ r.2 = status 0x50#8
    · exact .inr (hclear hc)
    · rw [if_neg hc] at hb'
      rcases hb' with rfl | rfl
      · exact .inl hi'
      · exact .inr hi'
  · intro x hx
    rcases unlocked_of_reply hlen ⟨by decide, by decide, by decide⟩ h with hu | hu
    · rw [receive_program hu] at h
      obtain rfl := Option.some.inj h
      rcases updProgram_spec L hi n a crc with ⟨h1, -⟩ | ⟨hT, hpos, -, -, hr⟩
      · exact congrFun h1 x
      · rw [hr]
        exact (programAll_spec L s.hw s.ram n.toNat a hT hpos).2.1 x (fun hc => by have := hc.1; omega)
    · rw [hu.1]
  · rintro (h1 | h1 | h1)
    · exact hclear (.inr (.inl h1))
    · exact hclear (.inr (.inr h1))
    · exact hclear (.inl (by rw [h1]; decide))
  · intro ho
    rcases unlocked_of_reply hlen ⟨by decide, by decide, by decide⟩ h with hu | hu
    · rw [receive_program hu] at h
      obtain rfl := Option.some.inj h
      rcases updProgram_spec L hi n a crc with ⟨-, h1⟩ | ⟨hT, hpos, hn, -, hr⟩
      · exact absurd ho h1
      · rw [hr] at ho ⊢
        have hst : (programAll E s.hw s.ram n.toNat a).1 = UDP_IAP_SUCCESS := by
          simp only [status, ok, Resp.mk.injEq, List.cons.injEq, and_true, true_and] at ho
          exact ho
        refine ⟨hn.symm, fun i hlt => ?_⟩
        have hcap : n.toNat ≤ cap n.toNat := by unfold cap; omega
        show (programAll E s.hw s.ram n.toNat a).2.flash (a.toNat + i) = _
        rw [(programAll_spec L s.hw s.ram n.toNat a hT hpos).2.2.1 hst i (by omega)]
        have hd : bytesAt s.ram 0 buf.length = buf := hi.data
        conv => rhs; rw [← hd]
        rw [bytesAt_get (by omega), Nat.zero_add]
    · exact absurd ho hu.2

theorem descPage_eq {E : Env} (L : Layout E) : bootDescriptorBlockPage E = (appFirst E - 256) / 256 := by
  have := appFirst_ge E
  have := appFirst_le E
  have := L.size
  have := L.room
  unfold bootDescriptorBlockPage
  rw [pageOfAddress_small _ (by rw [descAddr_eq L]; omega), descAddr_eq L]

theorem recv_updateDescriptor {E : Env} (L : Layout E) {I : Info} {s : State} (n crc : U32) {r : State × Resp}
    (h : receive E I s (msgUpdateDescriptor n crc) = some r) :
    (∃ e, r.2 = status e) ∧ r.1.ram = s.ram ∧ r.1.ramBufferPosition = s.ramBufferPosition ∧
      r.1.decomp = s.decomp ∧ (∀ x, appFirst E ≤ x → r.1.hw.flash x = s.hw.flash x) ∧
      (r.2 = ok → crc32Std (bytesAt s.ram 0 n.toNat) = crc) := by
  have hlen : (le32 n ++ le32 crc).length < 255 := show 8 < 255 by omega
  rcases receive_cons hlen h with ⟨e, rfl, he, -⟩ | ⟨-, -, -, -, hq⟩
  · refine ⟨⟨e, rfl⟩, rfl, rfl, rfl, fun _ _ => rfl, fun h => ?_⟩
    have h : status e = ok := h
    rcases he with rfl | rfl | rfl <;> exact absurd h (by decide)
  · have : dispatch E I s 0xed#8 (fun i => (le32 n ++ le32 crc).getD i 0#8) (le32 n ++ le32 crc).length
        = some (updUpdateBootDescriptorBlock E s (fun i => (le32 n ++ le32 crc).getD i 0#8)) := rfl
    rw [this] at hq
    obtain rfl := Option.some.inj hq
    have hge := appFirst_ge E
    have her : ∀ x, appFirst E ≤ x →
        (erasePageRange E s.hw (bootDescriptorBlockPage E) (bootDescriptorBlockPage E)).2.flash x = s.hw.flash x := by
      intro x hx
      unfold erasePageRange
      split
      · rfl
      · refine erasePageRange_out _ _ _ _ _ ?_
        rw [descPage_eq L]
        omega
    have hpr : ∀ hw x, appFirst E ≤ x →
        (executeProgramFlash E hw (bootDescriptorBlockAddress E) s.ram 256 true).2.flash x = hw.flash x := by
      intro hw x hx
      unfold executeProgramFlash
      split
      · rfl
      · refine program_out _ _ _ _ _ _ ?_
        rw [descAddr_eq L]
        omega
    obtain ⟨l1, l2⟩ := load_eraseRange n crc
    unfold updUpdateBootDescriptorBlock
    rw [l1, l2]
    dsimp only
    split
    · exact ⟨⟨_, rfl⟩, rfl, rfl, rfl, fun _ _ => rfl, fun h => absurd h (by decide : status 0x5b#8 ≠ ok)⟩
    · split
      · exact ⟨⟨_, rfl⟩, rfl, rfl, rfl, fun _ _ => rfl, fun h => absurd h (by decide : status 0x5e#8 ≠ ok)⟩
      · rename_i hcrc
        have hcrc : crc32Std (bytesAt s.ram 0 n.toNat) = crc := by
          rw [← crc_eq]
          exact Classical.not_not.mp hcrc
        split
        · split
          · exact ⟨⟨_, rfl⟩, rfl, rfl, rfl, fun _ _ => rfl, fun _ => hcrc⟩
          · exact ⟨⟨_, rfl⟩, rfl, rfl, rfl, fun _ _ => rfl, fun _ => hcrc⟩
        · split
          · exact ⟨⟨_, rfl⟩, rfl, rfl, rfl, her, fun _ => hcrc⟩
          · split
            · exact ⟨⟨_, rfl⟩, rfl, rfl, rfl, fun x hx => (hpr _ x hx).trans (her x hx), fun _ => hcrc⟩
            · split
              · exact ⟨⟨_, rfl⟩, rfl, rfl, rfl, fun x hx => (hpr _ x hx).trans (her x hx), fun _ => hcrc⟩
              · exact ⟨⟨_, rfl⟩, rfl, rfl, rfl, fun x hx => (hpr _ x hx).trans (her x hx), fun _ => hcrc⟩

/-! ## Data sent in pieces, pieces possibly repeated -/

/-- `X` is `d` cut into pieces of 13 bytes, each of them at least once. -/
inductive Rep : List Byte → List Byte → Prop where
  | nil : Rep [] []
  | dup {d X : List Byte} : d ≠ [] → Rep d X → Rep d (d.take 13 ++ X)
  | next {d X : List Byte} : d ≠ [] → Rep (d.drop 13) X → Rep d (d.take 13 ++ X)

theorem Rep.length {d X : List Byte} (h : Rep d X) : d.length ≤ X.length := by
  induction h with
  | nil => exact Nat.le_refl _
  | dup _ _ ih => rw [List.length_append]; omega
  | next _ _ ih =>
    rw [List.length_drop] at ih
    rw [List.length_append, List.length_take]
    omega

theorem Rep.eq {d X : List Byte} (h : Rep d X) : X.length = d.length → X = d := by
  induction h with
  | nil => intro _; rfl
  | dup h0 hr _ =>
    intro hl
    have := hr.length
    have := List.length_pos_iff.mpr h0
    rw [List.length_append, List.length_take] at hl
    omega
  | next h0 hr ih =>
    intro hl
    rw [ih, List.take_append_drop]
    rw [List.length_append, List.length_take] at hl
    have := hr.length
    rw [List.length_drop] at this ⊢
    omega

theorem Rep.dups {d X : List Byte} (h0 : d ≠ []) (h : Rep d X) (k : Nat) :
    Rep d ((List.replicate k (d.take 13)).flatten ++ X) := by
  induction k with
  | zero => simpa using h
  | succ k ih =>
    rw [List.replicate_succ, List.flatten_cons, List.append_assoc]
    exact .dup h0 ih

theorem Rep.head {d X : List Byte} (h : Rep d X) (hd : d ≠ []) : ∃ Y, X = d.take 13 ++ Y ∧
    (Rep d Y ∨ Rep (d.drop 13) Y) := by
  cases h with
  | nil => exact absurd rfl hd
  | dup _ h => exact ⟨_, rfl, .inl h⟩
  | next _ h => exact ⟨_, rfl, .inr h⟩

theorem doFlash_rule {E : Env} (L : Layout E) {I : Info} {ch : Channel} {ram0 : Nat → Byte} (data : List Byte) :
    ∀ (fuel i : Nat) (c c' : Link) (buf : List Byte), BufInv E ram0 c.dev buf →
      doFlash E I ch data fuel i c = some (c', some ()) →
      ∃ X, Rep (data.drop i) X ∧ BufInv E ram0 c'.dev (buf ++ X) ∧ c'.dev.hw = c.dev.hw := by
  intro fuel
  induction fuel with
  | zero => intro i c c' buf _ h; exact absurd h (by simp [doFlash])
  | succ fuel ih =>
    intro i c c' buf hi h
    unfold doFlash at h
    by_cases hlt : i < data.length
    · rw [if_pos hlt] at h
      dsimp only at h
      have hne : data.drop i ≠ [] := by
        intro h0
        have := congrArg List.length h0
        rw [List.length_drop, List.length_nil] at this
        omega
      have hsz : ((data.drop i).take 13).length ≤ 13 := by rw [List.length_take]; omega
      obtain ⟨c1, rb, h1, h2⟩ := andThen_some h
      obtain ⟨r, b⟩ := rb
      obtain ⟨s, ⟨k, q1, q2⟩, q3, q4⟩ := send_rule
        (P := fun s => ∃ k, BufInv E ram0 s (buf ++ (List.replicate k ((data.drop i).take 13)).flatten) ∧
          s.hw = c.dev.hw)
        (by
          rintro s r ⟨k, p1, p2⟩ hr
          obtain ⟨-, h3, h4⟩ := recv_sendData L p1 hsz hr
          rcases h4 with ⟨-, h4⟩ | ⟨-, h4⟩
          · refine ⟨k + 1, ?_, h3.trans p2⟩
            rw [List.replicate_succ', List.flatten_append, List.flatten_singleton, ← List.append_assoc]
            exact h4
          · exact ⟨k, h4, h3.trans p2⟩) _ _ _ _ _ _ ⟨0, by simpa using hi, rfl⟩ h1
      obtain ⟨⟨e, he⟩, h3, h4⟩ := recv_sendData L q1 hsz q3
      have he : r = status e := he
      have h3 : c1.dev.hw = s.hw := h3
      dsimp only at h2
      cases b with
      | true =>
        rw [if_pos rfl] at h2
        have : ∃ k, BufInv E ram0 c1.dev (buf ++ (List.replicate k ((data.drop i).take 13)).flatten) := by
          rcases h4 with ⟨-, h4⟩ | ⟨-, h4⟩
          · refine ⟨k + 1, ?_⟩
            rw [List.replicate_succ', List.flatten_append, List.flatten_singleton, ← List.append_assoc]
            exact h4
          · exact ⟨k, h4⟩
        obtain ⟨k, h5⟩ := this
        obtain ⟨X, x1, x2, x3⟩ := ih i c1 c' _ h5 h2
        rw [List.append_assoc] at x2
        exact ⟨_, x1.dups hne k, x2, x3.trans (h3.trans q2)⟩
      | false =>
        obtain ⟨rfl, -⟩ := q4 rfl
        rw [if_neg (by decide)] at h2
        by_cases ho : checkResult r ≠ 0x7f#8
        · rw [if_pos ho] at h2; exact absurd h2 (by simp)
        · rw [if_neg ho] at h2
          have ho : r = ok := by
            rw [he]
            rw [he, checkResult_status] at ho
            rw [Classical.not_not.mp ho]
            rfl
          obtain ⟨-, -, h4⟩ := recv_sendData L hi hsz q3
          rcases h4 with ⟨-, h4⟩ | ⟨h4, -⟩
          · obtain ⟨X, x1, x2, x3⟩ := ih _ c1 c' _ h4 h2
            rw [List.append_assoc] at x2
            refine ⟨_, .next hne ?_, x2, x3.trans h3⟩
            have : (data.drop i).drop 13 = data.drop (i + ((data.drop i).take 13).length) := by
              rw [List.drop_drop, List.length_take, List.length_drop]
              by_cases h13 : 13 ≤ data.length - i
              · rw [Nat.min_eq_left h13]
              · rw [List.drop_of_length_le (by omega), List.drop_of_length_le (by omega)]
            rw [this]
            exact x1
          · exact absurd ho h4
    · rw [if_neg hlt] at h
      obtain ⟨rfl, -⟩ := Prod.mk.inj (Option.some.inj h)
      refine ⟨[], ?_, by simpa using hi, rfl⟩
      rw [List.drop_of_length_le (by omega)]
      exact .nil

end Verif.Boot
