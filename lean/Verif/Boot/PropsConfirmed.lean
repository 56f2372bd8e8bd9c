import Verif.Boot.PropsOverBus
import Verif.TL4.PropsDialogue

/-!
# C108: an update whose commands are all confirmed

The dialogue of C109 with the bootloader: the client receives the answers to its commands. If all of them
report success, the flash holds the new image, also if flash operations can fail.
-/

namespace Verif.Boot
open Verif.Iap Spec Tool Knx
open Verif.TL4 (Reachable Requests Sys Dialogue DReach Acks)

/-! ## The updater always answers -/

theorem ite_total {α : Type} {c : Prop} [Decidable c] {a b : Option α} (h : c → ∃ r, a = some r)
    (h' : ¬ c → ∃ r, b = some r) : ∃ r, (if c then a else b) = some r := by
  by_cases hc : c
  · rw [if_pos hc]; exact h hc
  · rw [if_neg hc]; exact h' hc

/-- Only data for the decompressor can lead to undefined behaviour. -/
theorem receive_total (E : Env) (I : Info) (s : State) (m : List Byte) (h : m.head? ≠ some 0xec#8) :
    ∃ r, receive E I s m = some r := by
  unfold receive handle
  dsimp only
  by_cases h1 : (BitVec.ofNat 32 m.length).toNat < 1
  · rw [if_pos h1]; exact ⟨_, rfl⟩
  rw [if_neg h1]
  by_cases h2 : (code2UPDCommand (m.getD 0 0#8)).1 = 0x00#8
  · rw [if_pos h2]; exact ⟨_, rfl⟩
  rw [if_neg h2]
  split
  · exact ⟨_, rfl⟩
  split
  · exact ⟨_, rfl⟩
  have hcode : (code2UPDCommand (m.getD 0 0#8)).1 = m.getD 0 0#8 := by
    revert h2
    generalize m.getD 0 0#8 = c
    revert c; decide +kernel
  have hne : (code2UPDCommand (m.getD 0 0#8)).1 ≠ 0xec#8 := by
    rw [hcode]
    cases m with
    | nil => decide
    | cons c d => intro hc; exact h (by rw [List.head?_cons]; exact congrArg some hc)
  unfold dispatch
  repeat' (first | (exact ⟨_, rfl⟩) | (refine ite_total (fun _ => ⟨_, rfl⟩) (fun _ => ?_)) |
    (refine ite_total (fun hc => absurd hc hne) (fun _ => ?_)))

theorem run_total (E : Env) (I : Info) : ∀ (ms : List (List Byte)) (s : State),
    (∀ m ∈ ms, m.head? ≠ some 0xec#8) → ∃ r, run E I s ms = some r
  | [], s, _ => ⟨_, rfl⟩
  | m :: ms, s, h => by
    obtain ⟨r, hr⟩ := receive_total E I s m (h m (List.mem_cons_self ..))
    obtain ⟨r', hr'⟩ := run_total E I ms r.1 (fun x hx => h x (List.mem_cons_of_mem _ hx))
    unfold receive at hr
    refine ⟨(r'.1, r.2 :: r'.2), ?_⟩
    unfold run
    rw [hr]
    show (run E I r.1 ms).map _ = _
    rw [hr']
    rfl

theorem run_length (E : Env) (I : Info) : ∀ (ms : List (List Byte)) (s : State) (r : State × List Resp),
    run E I s ms = some r → r.2.length = ms.length
  | [], s, r, h => by rw [← Option.some.inj h]; rfl
  | m :: ms, s, r, h => by
    obtain ⟨r1, r2, _, e2, e3⟩ := run_cons h
    rw [e3]
    show (r1.2 :: r2.2).length = _
    rw [List.length_cons, List.length_cons, run_length E I ms _ _ e2]

/-! ## The client -/

/-- The data of the client's first `n` messages. -/
def messages (req : Nat → Buf) (n : Nat) : List (List Byte) :=
  (List.range n).map fun i => message (req i) (telegramSize (req i) + 1)

/-- A client of the bootloader: every message gets an answer; telegrams are complete; after its first `i`
messages (and whatever else may have happened) the updater, which was in state `u`, is in the state these
messages lead to. -/
def updateClient (E : Env) (I : Info) (u : State) (req ack : Nat → Buf) : TL4.Client BootDev where
  req := req
  ack := ack
  expects _ := true
  lens t len := len = telegramSize t + 1
  known i d := d.st = (run E I u (messages req i)).map (·.1)

/-- The client's requests are update messages, and none of them carries data for the decompressor. -/
structure UpdateMessages (req : Nat → Buf) : Prop where
  messages : ∀ i, IsUpdateMessage (req i) ∧ 9 ≤ telegramSize (req i) + 1
  noDecompress : ∀ i, (message (req i) (telegramSize (req i) + 1)).head? ≠ some 0xec#8

theorem messages_total (E : Env) (I : Info) (u : State) {req : Nat → Buf} (h : UpdateMessages req) (n : Nat) :
    ∃ r, run E I u (messages req n) = some r := by
  apply run_total
  intro m hm
  obtain ⟨i, _, rfl⟩ := List.mem_map.mp hm
  exact h.noDecompress i

theorem messages_succ (req : Nat → Buf) (n : Nat) :
    messages req (n + 1) = messages req n ++ [message (req n) (telegramSize (req n) + 1)] := by
  unfold messages
  rw [List.range_succ, List.map_append]
  rfl

theorem run_snoc {E : Env} {I : Info} {u v v' : State} {rs : List Resp} {r : Resp} {ms : List (List Byte)}
    {m : List Byte} (h : run E I u ms = some (v, rs)) (h' : receive E I v m = some (v', r)) :
    run E I u (ms ++ [m]) = some (v', rs ++ [r]) := by
  rw [run_append ms h]
  unfold receive at h'
  unfold run
  rw [h']
  rfl

theorem update_plain (E : Env) (I : Info) : TL4.AppPlain (updateApp E I) where
  apci := (update_appOk E I).apci
  broadcast := by
    intro d t l f b h
    have h : (updateBroadcast d t l).2 = some f := h
    unfold updateBroadcast at h
    split at h
    · have : iaResponse = f := Option.some.inj h
      subst this
      have : iaResponse b 6 = 0x01#8 := rfl
      rw [this]; decide
    · exact absurd h (by simp)
  group := by intro d t l f b h; exact absurd h (by simp [updateApp, updateGroup])

theorem update_expected (E : Env) (I : Info) (u : State) (req ack : Nat → Buf) (hm : UpdateMessages req) :
    TL4.Expected (updateApp E I) (updateClient E I u req ack) where
  answer := by
    intro i d l b hk hl
    have hl : l = telegramSize (req i) + 1 := hl
    obtain ⟨v, hv⟩ := messages_total E I u hm i
    have hd : d.st = some v.1 := by
      have hk : d.st = _ := hk
      rw [hk, hv]; rfl
    obtain ⟨r, hr⟩ := receive_total E I v.1 _ (hm.noDecompress i)
    show (updateApci E I d (req i) l b).2.2 = true
    rw [hl, updateApci_message E I d v.1 (req i) _ b (hm.messages i).1 (hm.messages i).2 (size_le _) hd, hr]
  next := by
    intro i d l b hk hl
    have hl : l = telegramSize (req i) + 1 := hl
    obtain ⟨v, hv⟩ := messages_total E I u hm i
    have hd : d.st = some v.1 := by
      have hk : d.st = _ := hk
      rw [hk, hv]; rfl
    obtain ⟨r, hr⟩ := receive_total E I v.1 _ (hm.noDecompress i)
    show (updateApci E I d (req i) l b).1.st = (run E I u (messages req (i + 1))).map (·.1)
    rw [hl, updateApci_message E I d v.1 (req i) _ b (hm.messages i).1 (hm.messages i).2 (size_le _) hd, hr,
      messages_succ, run_snoc (v := v.1) (rs := v.2) hv hr]
    rfl
  broadcast := by
    intro i d t l hk
    show (updateBroadcast d t l).1.st = _
    rw [broadcast_st]; exact hk
  group := fun i d t l hk => hk

/-- The data of a frame that carries an answer. -/
theorem frame_data {p : Word} {j : Nat} {t sb raw : Buf} {f : List Byte} {r : Resp}
    (h : TL4.IsAnswer p j t raw f)
    (ha : Spec.IsAnswer sb raw r) (hs : telegramSize raw = 9 + r.payload.length) :
    f.drop 7 = 0xFE#8 :: r.cmd :: r.payload := by
  have hl : f.length = 9 + r.payload.length := by rw [h.length]; exact hs
  have e : (bytes raw (telegramSize raw)).drop 7 = 0xFE#8 :: r.cmd :: r.payload := by
    rw [ha]; rfl
  rw [← e]
  apply List.ext_getElem
  · rw [List.length_drop, List.length_drop, hl, hs]
    simp [bytes]
  · intro i h1 h2
    rw [List.getElem_drop, List.getElem_drop]
    have h3 := h.rest (7 + i) (by omega) (by rw [List.length_drop] at h1; omega)
    rw [List.getD_eq_getElem?_getD, List.getElem?_eq_getElem (by rw [List.length_drop] at h1; omega)] at h3
    have h4 : f[7 + i]'(by rw [List.length_drop] at h1; omega) = raw (7 + i) := h3
    rw [h4]
    simp [bytes]

/-- The bus right after the connection was made. -/
def dialogue (E : Env) (I : Info) (s : TL4.State BootDev) (c : Buf) (len : Nat) : Dialogue BootDev :=
  { sys := connected E I s c len, fromDevice := [], acks := [], got := [], executed := [] }

/-- **C108.** A client talks to the bootloader over a bus that loses and duplicates telegrams, and receives the
answers. At every moment the updater is in the state that results from executing the client's first `r`
messages, each exactly once, where `r` is the number of messages acknowledged or one more; the telegrams the
client has taken carry the answers to its messages, one for each, in order. -/
theorem C108_answers (E : Env) (I : Info) (p d : Word) (req ack : Nat → Buf) (hreq : Requests p d req)
    (hack : Acks p ack) (hm : UpdateMessages req) (s : TL4.State BootDev) (c : Buf) (u : State)
    (hc : Connects E I p s c u) (len : Nat) (z : Dialogue BootDev)
    (hz : DReach (updateApp E I) p (updateClient E I u req ack) (dialogue E I s c len) z) :
    ∃ (r : Nat) (v : State) (rs : List Resp), z.executed.length = r ∧ z.sys.current ≤ r ∧ r ≤ z.sys.current + 1 ∧
      z.got.length ≤ r ∧ r ≤ z.got.length + 1 ∧ run E I u (messages req r) = some (v, rs) ∧ z.sys.dev.app.st = some v ∧
      ∀ (j : Nat) (f : List Byte), z.got[j]? = some f → ∃ a : Resp, rs[j]? = some a ∧ f.drop 7 = 0xFE#8 :: a.cmd :: a.payload := by
  obtain ⟨⟨r, h1, h2, h3, hk⟩, hh, h4, h5, h6⟩ := TL4.C109_dialogue (updateApp E I) (update_plain E I) p d
    (updateClient E I u req ack) hreq hack (update_expected E I u req ack hm) s hc.reachable hc.closed hc.free
    (by show s.app.st = _; rw [hc.updater]; rfl) c len hc.addressed hc.connect hc.src z hz
  obtain ⟨v, hv⟩ := messages_total E I u hm r
  have hall : TL4.answered (updateClient E I u req ack).expects z.executed = z.executed := by
    unfold TL4.answered
    exact List.filter_eq_self.mpr (fun _ _ => rfl)
  have hlen : z.executed.length = r := by
    have := congrArg List.length h1
    simpa using this
  rw [hall] at h4 h5 h6
  have hk : z.sys.dev.app.st = _ := hk
  refine ⟨r, v.1, v.2, hlen, h2, h3, by omega, by omega, hv, by rw [hk, hv]; rfl, ?_⟩
  intro j f hj
  obtain ⟨e, he, b, hi⟩ := h6 j f hj
  have hjr : j < r := by
    rcases Nat.lt_or_ge j r with hlt | hge
    · exact hlt
    · rw [List.getElem?_eq_none (by omega)] at he; cases he
  obtain ⟨hkj, hlj⟩ := hh j e he
  have hej : e.2.1 = req j := by
    have := congrArg (fun l => l[j]?) h1
    simp only [List.getElem?_map, he, List.getElem?_range hjr, Option.map_some] at this
    exact Option.some.inj this
  have hlj : e.2.2 = telegramSize e.2.1 + 1 := hlj
  obtain ⟨w, hw⟩ := messages_total E I u hm j
  have hst : e.1.st = some w.1 := by
    have hkj : e.1.st = _ := hkj
    rw [hkj, hw]; rfl
  obtain ⟨a, ha⟩ := receive_total E I w.1 _ (hm.noDecompress j)
  obtain ⟨b', k1, k2, _, k4, _⟩ := C107_message E I e.1 w.1 a.1 a.2 (req j) (telegramSize (req j) + 1) b
    (hm.messages j).1 (hm.messages j).2 (size_le _) hst ha
  refine ⟨a.2, ?_, ?_⟩
  · have hsplit : messages req r = messages req (j + 1) ++
        ((List.range (r - (j + 1))).map fun i => message (req (j + 1 + i)) (telegramSize (req (j + 1 + i)) + 1)) := by
      unfold messages
      conv => lhs; rw [show r = (j + 1) + (r - (j + 1)) by omega, List.range_add, List.map_append]
      rw [List.map_map]
      rfl
    have hrun := run_snoc (v := w.1) (rs := w.2) hw ha
    rw [← messages_succ] at hrun
    rw [hsplit, run_append _ hrun] at hv
    cases hx : run E I a.1 ((List.range (r - (j + 1))).map fun i =>
        message (req (j + 1 + i)) (telegramSize (req (j + 1 + i)) + 1)) with
    | none => rw [hx] at hv; cases hv
    | some x =>
      rw [hx] at hv
      rw [← Option.some.inj hv]
      have hwl : w.2.length = j := by rw [run_length E I _ _ _ hw]; simp [messages]
      show (w.2 ++ [a.2] ++ x.2)[j]? = some a.2
      rw [List.append_assoc, List.getElem?_append_right (by omega), hwl, Nat.sub_self]
      rfl
  · have hraw : (updateApp E I).processApci e.1 e.2.1 e.2.2 b = ({ e.1 with st := some a.1 }, b', true) := by
      rw [hlj, hej]; exact k1
    rw [hraw] at hi
    exact frame_data hi k2 k4

/-! ## An update whose commands are all answered with success -/

theorem confirmed_data {E : Env} (L : Layout E) {I : Info} {ram0 : Nat → Byte} {s' : State} :
    ∀ (ts : List (List Byte)) (s : State) (buf : List Byte), (∀ t ∈ ts, t.length ≤ 13) → BufInv E ram0 s buf →
      AllOk E I s (ts.map msgSendData) s' → BufInv E ram0 s' (buf ++ ts.flatten) ∧ s'.hw = s.hw
  | [], s, buf, _, hi, h => by
    obtain rfl := allOk_nil h
    rw [List.flatten_nil, List.append_nil]
    exact ⟨hi, rfl⟩
  | t :: ts, s, buf, ht, hi, h => by
    obtain ⟨s1, e1, e2⟩ := allOk_inv h
    obtain ⟨-, e3, e4⟩ := recv_sendData L hi (ht t List.mem_cons_self) e1
    rcases e4 with ⟨-, e4⟩ | ⟨e4, -⟩
    · obtain ⟨k1, k2⟩ := confirmed_data L ts s1 (buf ++ t) (fun x hx => ht x (List.mem_cons_of_mem _ hx)) e4 e2
      rw [List.flatten_cons, ← List.append_assoc]
      exact ⟨k1, k2.trans e3⟩
    · exact absurd rfl e4

theorem confirmed_dataCommands {E : Env} (L : Layout E) {I : Info} {ram0 : Nat → Byte} {s s' : State}
    {data : List Byte} (hi : BufInv E ram0 s []) (h : AllOk E I s (dataCommands data) s') :
    BufInv E ram0 s' data ∧ s'.hw = s.hw := by
  have := confirmed_data L (telegrams data.length data) s [] (fun t ht => (telegrams_size _ _ t ht).2) hi h
  rw [telegrams_flatten _ _ (Nat.le_refl _), List.nil_append] at this
  exact this

theorem confirmed_blocks {E : Env} (L : Layout E) {I : Info} {ram0 : Nat → Byte} {B start : Nat} (hB : 0 < B)
    (hB' : B < 2 ^ 16) {image : List Byte} (hfit : start + image.length ≤ 2 ^ 32) {s' : State} :
    ∀ (fuel : Nat) (sent rest : List Byte) (s : State), rest.length ≤ fuel → image = sent ++ rest →
      BufInv E ram0 s [] → Holds s.hw.flash start sent →
      AllOk E I s (blockCommands B fuel rest (start + sent.length)) s' →
      BufInv E ram0 s' [] ∧ Holds s'.hw.flash start image := by
  intro fuel
  induction fuel with
  | zero =>
    intro sent rest s hfu him hi hold h
    have : rest = [] := List.eq_nil_of_length_eq_zero (by omega)
    subst this
    obtain rfl := allOk_nil h
    rw [him, List.append_nil]
    exact ⟨hi, hold⟩
  | succ fuel ih =>
    intro sent rest s hfu him hi hold h
    unfold blockCommands at h
    by_cases hr : rest = []
    · subst hr
      obtain rfl := allOk_nil h
      rw [him, List.append_nil]
      exact ⟨hi, hold⟩
    · have hemp : rest.isEmpty = false := by
        cases rest with
        | nil => exact absurd rfl hr
        | cons => rfl
      have hrl := List.length_pos_iff.mpr hr
      rw [hemp, if_neg (by decide)] at h
      dsimp only at h
      have htl : (rest.take B).length = min B rest.length := List.length_take ..
      have hil : image.length = sent.length + rest.length := by rw [him, List.length_append]
      obtain ⟨s2, h, h3⟩ := allOk_split h
      obtain ⟨s1, h1, h2⟩ := allOk_split h
      obtain ⟨i1, w1⟩ := confirmed_dataCommands L hi h1
      obtain ⟨s2', e2, h2⟩ := allOk_inv h2
      obtain rfl := allOk_nil h2
      obtain ⟨-, -, k3, k4, k5⟩ := recv_program L i1 _ _ _ e2
      have han : (BitVec.ofNat 32 (start + sent.length)).toNat = start + sent.length := by
        rw [BitVec.toNat_ofNat]; omega
      have hn : (BitVec.ofNat 16 (rest.take B).length).toNat = (rest.take B).length := by
        rw [BitVec.toNat_ofNat]; omega
      have k5 := (k5 rfl).2
      rw [han] at k3 k5
      rw [hn] at k5
      rw [Nat.add_assoc, ← List.length_append] at h3
      exact ih (sent ++ rest.take B) (rest.drop B) s2' (by rw [List.length_drop]; omega)
        (by rw [List.append_assoc, List.take_append_drop]; exact him) (k4 (.inr (.inr rfl)))
        (by
          intro x hx
          rw [List.length_append] at hx
          by_cases hxs : x < sent.length
          · rw [getD_append_lt hxs, ← hold x hxs, ← w1]
            exact k3 _ (by omega)
          · rw [getD_append_ge (by omega)]
            have := k5 (x - sent.length) (by omega)
            rw [show start + sent.length + (x - sent.length) = start + x by omega] at this
            exact this) h3

/-- The commands of a full update, all answered with success, on a device whose flash operations may fail. -/
theorem confirmed_full (E : Env) (L : Layout E) (I : Info) (ram : Nat → Byte) (u v : State) (buf : List Byte)
    (hi : BufInv E ram u buf) (blockSize : Nat) (hB : 0 < blockSize) (hB' : blockSize < 2 ^ 16)
    (uid image : List Byte) (huid : uid.length = 12) (start version : Nat)
    (hlen : 1 ≤ image.length) (hfit : start + image.length ≤ 2 ^ 32) (eraseAll : Bool)
    (h : AllOk E I u (fullCommands blockSize uid image start version eraseAll) v) :
    Holds v.hw.flash start image ∧ startup E v.hw.flash false false = some (BitVec.ofNat 32 start) := by
  unfold fullCommands at h
  have hd := descriptor_length image start version
  have hs32 : (BitVec.ofNat 32 start).toNat = start := by rw [BitVec.toNat_ofNat]; omega
  obtain ⟨s3, h, h3⟩ := allOk_split h
  obtain ⟨s2, h, h2⟩ := allOk_split h
  obtain ⟨s1, g1, h⟩ := allOk_inv h
  obtain ⟨s2', g2, h⟩ := allOk_inv h
  obtain rfl := allOk_nil h
  have ht1 : Telegram (msgUnlock uid) := by
    unfold Telegram msgUnlock; rw [List.length_cons]; omega
  obtain ⟨buf1, -, hi1⟩ := bufInv_step L hi ht1 g1
  have hi2 : BufInv E ram s2' [] := by
    refine erase_clears L hi1 ?_ g2 rfl
    cases eraseAll with
    | true => exact .inl rfl
    | false => exact .inr ⟨_, _, rfl⟩
  obtain ⟨hi3, hold⟩ := confirmed_blocks L hB hB' hfit image.length [] image s2' (Nat.le_refl _) rfl hi2
    (fun x hx => absurd hx (by simp)) h2
  obtain ⟨s4, h4, h5⟩ := allOk_split h3
  obtain ⟨hi4, w4⟩ := confirmed_dataCommands L hi3 h4
  obtain ⟨s5, g5, h5⟩ := allOk_inv h5
  obtain rfl := allOk_nil h5
  have hram : bytesAt s4.ram 0 16 = descriptor image start version := by
    have := hi4.data
    rw [hd] at this
    exact this
  have hw0 : load32 s4.ram 0 = BitVec.ofNat 32 start :=
    load_at (pre := []) (post := le32 (BitVec.ofNat 32 (start + image.length - 1)) ++ (le32 (crc32Std image) ++
      le32 (BitVec.ofNat 32 version))) (by rw [hram]; rfl)
  obtain ⟨k1, -, -⟩ := C45_installed_application_starts E L I s4 s5 _ _
    (by rw [hd]; exact (by decide : 16 ≤ (BitVec.ofNat 32 16).toNat)) g5
  have hst : startup E s5.hw.flash false false = some (BitVec.ofNat 32 start) := k1.trans (congrArg some hw0)
  have hlo := (C45_start_address E L _ _ _ _ hst).2.1
  rw [hs32] at hlo
  obtain ⟨-, -, -, -, q2, -⟩ := recv_updateDescriptor L _ _ g5
  refine ⟨fun x hx => ?_, hst⟩
  have e : s5.hw.flash (start + x) = s4.hw.flash (start + x) := q2 _ (by omega)
  rw [e, w4]
  exact hold x hx

/-- Answers that are all success. -/
theorem answers_ok {ws : List Resp} {cmds : List (List Byte)} (hl : ws.length = cmds.length)
    (h : ∀ j, j < cmds.length → ws[j]? = some ok) : ws = cmds.map fun _ => ok := by
  apply List.ext_getElem
  · rw [List.length_map, hl]
  · intro i h1 h2
    rw [List.getElem_map]
    have := h i (by rwa [List.length_map] at h2)
    rw [List.getElem?_eq_getElem h1] at this
    exact Option.some.inj this

/-- **C108.** A full update over a bus that loses and duplicates telegrams, with a flash whose operations may
fail. The client connects to the bootloader, which may be in any state an earlier history `ms` of update commands
led to, and transmits the commands of the tool's full mode. At every moment when it has taken an answer to each of
them, and each of these telegrams reports success, the flash holds the image and the image is started at the next
reset.
(Missing for "every update": the commands in the order of the tool's full mode; a decompressing update is not
covered.) -/
theorem C108_confirmed_update_partial (E : Env) (L : Layout E) (I : Info) (hw : Hw) (ram : Nat → Byte)
    (ms : List (List Byte)) (hm : ∀ m ∈ ms, Telegram m) (u : State) (rs : List Resp)
    (h : run E I (init E hw ram) ms = some (u, rs)) (blockSize : Nat)
    (hB : 0 < blockSize) (hB' : blockSize < 2 ^ 16) (uid image : List Byte) (huid : uid.length = 12)
    (start version : Nat) (hlen : 1 ≤ image.length) (hfit : start + image.length ≤ 2 ^ 32) (eraseAll : Bool)
    (p d : Word) (req ack : Nat → Buf)
    (ht : Transmits p d req (fullCommands blockSize uid image start version eraseAll)) (hack : Acks p ack)
    (hn : ∀ i, (message (req i) (telegramSize (req i) + 1)).head? ≠ some 0xec#8)
    (s : TL4.State BootDev) (c : Buf) (len : Nat) (hc : Connects E I p s c u) (z : Dialogue BootDev)
    (hz : DReach (updateApp E I) p (updateClient E I u req ack) (dialogue E I s c len) z)
    (hdone : z.got.length = (fullCommands blockSize uid image start version eraseAll).length)
    (hok : ∀ f ∈ z.got, f.drop 7 = [0xFE#8, 0xdc#8, 0x7f#8]) :
    ∃ v, z.sys.dev.app.st = some v ∧ Holds v.hw.flash start image ∧
      startup E v.hw.flash false false = some (BitVec.ofNat 32 start) := by
  obtain ⟨buf0, -, hi0⟩ := run_buf L ms hm .start (init_inv L hw ram) h
  obtain ⟨r, v, rs', -, -, -, h3, h4, h5, h6, h7⟩ := C108_answers E I p d req ack ht.requests hack
    ⟨ht.messages, hn⟩ s c u hc len z hz
  refine ⟨v, h6, ?_⟩
  have hcm : messages req (fullCommands blockSize uid image start version eraseAll).length
      = fullCommands blockSize uid image start version eraseAll := range_commands ht.commands
  have hafter := ht.afterwards
  have hfin := confirmed_full E L I ram u v buf0 hi0 blockSize hB hB' uid image huid start version hlen hfit eraseAll
  generalize fullCommands blockSize uid image start version eraseAll = cmds at *
  apply hfin
  have hsucc : ∀ j, j < cmds.length → rs'[j]? = some ok := by
    intro j hj
    obtain ⟨a, ha1, ha2⟩ := h7 j _ (List.getElem?_eq_getElem (by omega : j < z.got.length))
    rw [hok _ (List.getElem_mem _)] at ha2
    rw [ha1]
    obtain ⟨ac, ap⟩ := a
    obtain ⟨-, ha2⟩ := List.cons.inj ha2
    obtain ⟨e1, e2⟩ := List.cons.inj ha2
    have e1 : ac = 0xdc#8 := e1.symm
    have e2 : ap = [0x7f#8] := e2.symm
    subst e1 e2
    rfl
  have hr : r = cmds.length ∨ r = cmds.length + 1 := by omega
  rcases hr with rfl | rfl
  · rw [hcm] at h5
    unfold AllOk
    rw [h5]
    have hrl := run_length E I _ _ _ h5
    exact congrArg (fun x => some (v, x)) (answers_ok hrl hsucc)
  · rw [messages_succ, hcm, hafter] at h5
    obtain ⟨w, hw'⟩ := run_total E I cmds u (fun m hm => by
      rw [← hcm] at hm
      obtain ⟨i, _, rfl⟩ := List.mem_map.mp hm
      exact hn i)
    have hrl := run_length E I _ _ _ hw'
    obtain ⟨q, hq⟩ := statistics_leaves E I w.1
    rw [run_append cmds (s1 := w.1) (r1 := w.2) hw', hq] at h5
    obtain ⟨rfl, rfl⟩ := Prod.mk.inj (Option.some.inj h5)
    unfold AllOk
    rw [hw']
    refine congrArg (fun x => some (w.1, x)) (answers_ok hrl (fun j hj => ?_))
    have := hsucc j hj
    rwa [List.getElem?_append_left (by omega)] at this

/-! ## The hypotheses are met

The full update of the example of C81, with the answers: in each round the client sends its command (if it has the
answers to the ones before), the bootloader acknowledges it and sends its answer, the client takes both and
acknowledges the answer. The first command is lost once and duplicated once. -/

abbrev demoClient : TL4.Client BootDev :=
  updateClient demoEnv demoInfo demoStart (demoReqs demoFull) demoAck

abbrev demoReach : Dialogue BootDev → Prop :=
  DReach demoBus 0x1101#16 demoClient (dialogue demoEnv demoInfo demoDev demoConnect 8)

def dSend (z : Dialogue BootDev) : Dialogue BootDev :=
  if TL4.answersBefore demoClient.req demoClient.expects z.sys.current ≤ z.got.length then
    { z with sys := { z.sys with toDevice := z.sys.toDevice ++ [demoClient.req z.sys.current] } }
  else z

def dReceive (z : Dialogue BootDev) : Dialogue BootDev :=
  match z.sys.toDevice with
  | [] => z
  | t :: rest => { z with sys := { z.sys with toDevice := rest } }.device demoBus 0x1101#16
      (.rx t (telegramSize t + 1))

def dQuiet (op : TL4.Op) (z : Dialogue BootDev) : Dialogue BootDev := z.device demoBus 0x1101#16 op

def dAcked (z : Dialogue BootDev) : Dialogue BootDev :=
  match z.sys.toClient with
  | [] => z
  | n :: rest => { z with sys := { z.sys with toClient := rest
                                              current := if n = z.sys.current % 16 then z.sys.current + 1
                                                         else z.sys.current } }

def dTake (z : Dialogue BootDev) : Dialogue BootDev :=
  match z.fromDevice with
  | [] => z
  | f :: rest => { z with fromDevice := rest
                          got := if TL4.numberIn f = z.got.length % 16 then z.got ++ [f] else z.got }

def dConfirm (z : Dialogue BootDev) : Dialogue BootDev :=
  if z.got.isEmpty then z else { z with acks := z.acks ++ [demoClient.ack (z.got.length - 1)] }

def dReceiveAck (z : Dialogue BootDev) : Dialogue BootDev :=
  match z.acks with
  | [] => z
  | t :: rest => { z with acks := rest }.device demoBus 0x1101#16 (.rx t 8)

def dRequest (z : Dialogue BootDev) : Dialogue BootDev :=
  dAcked (dQuiet (.txDone true) (dQuiet .loop (dQuiet (.txDone true) (dReceive (dSend z)))))

def dAnswer (z : Dialogue BootDev) : Dialogue BootDev := dReceiveAck (dConfirm (dTake z))

def dRounds : Nat → Dialogue BootDev → Dialogue BootDev
  | 0, z => z
  | n + 1, z => dRounds n (dAnswer (dRequest z))

theorem dQuiet_reach {op : TL4.Op} (h : op = .loop ∨ op = .txDone true) {z : Dialogue BootDev} (hz : demoReach z) :
    demoReach (dQuiet op z) := by
  refine .step _ _ hz (.other z op (TL4.foreignD_quiet _ _ _ _ _ ?_))
  rcases h with rfl | rfl
  · exact .inl rfl
  · exact .inr (.inl ⟨_, rfl⟩)

theorem dRequest_reach {z : Dialogue BootDev} (hz : demoReach z) : demoReach (dRequest z) := by
  have h1 : demoReach (dSend z) := by
    unfold dSend
    split
    · rename_i h
      exact .step _ _ hz (.clientSend z h)
    · exact hz
  have h2 : demoReach (dReceive (dSend z)) := by
    generalize dSend z = z1 at *
    unfold dReceive
    split
    · exact h1
    · rename_i t rest ht
      exact .step _ _ h1 (.receive z1 t rest _ ht rfl)
  have h3 := dQuiet_reach (.inr rfl) (dQuiet_reach (.inl rfl) (dQuiet_reach (.inr rfl) h2))
  unfold dRequest
  generalize dQuiet _ (dQuiet _ _) = z1 at *
  unfold dAcked
  split
  · exact h3
  · rename_i n rest hn
    exact .step _ _ h3 (.clientAck z1 n rest hn)

theorem dTake_reach {z : Dialogue BootDev} (hz : demoReach z) : demoReach (dTake z) := by
  unfold dTake
  split
  · exact hz
  · rename_i f rest hf
    exact .step _ _ hz (.clientData z f rest hf)

theorem dAnswer_reach {z : Dialogue BootDev} (hz : demoReach z) : demoReach (dAnswer z) := by
  have h1 := dTake_reach hz
  unfold dAnswer
  generalize dTake z = z1 at *
  have h2 : demoReach (dConfirm z1) := by
    unfold dConfirm
    split
    · exact h1
    · rename_i h
      exact .step _ _ h1 (.answerAck z1 (fun hc => h (by rw [hc]; rfl)))
  generalize dConfirm z1 = z2 at *
  unfold dReceiveAck
  split
  · exact h2
  · rename_i t rest ht
    exact .step _ _ h2 (.receiveAck z2 t rest 8 ht)

theorem dRounds_reach : ∀ (n : Nat) {z : Dialogue BootDev}, demoReach z → demoReach (dRounds n z)
  | 0, _, h => h
  | n + 1, _, h => dRounds_reach n (dAnswer_reach (dRequest_reach h))

theorem demo_acks : Acks 0x1101#16 demoAck := by
  have ia : ∀ n : BitVec 4, TL4.Spec.isAck (fun k => [0xB0#8, 0x11#8, 0x01#8, 0x11#8, 0x05#8, 0x60#8,
      0xC2#8 ||| (n.setWidth 8 <<< (2 : Nat))].getD k 0#8) = true := by decide +kernel
  have sq : ∀ n : BitVec 4, TL4.Spec.seqOf (0xC2#8 ||| (n.setWidth 8 <<< (2 : Nat))) = n.toNat := by
    decide +kernel
  refine ⟨fun k => ?_, fun k => ia _, fun k => (sq _).trans (by simp)⟩
  show (0x11#8 : Byte) ++ (0x01#8 : Byte) = (0x1101#16 : BitVec (8 + 8))
  decide

theorem demo_noDecompress (i : Nat) :
    (message (demoReqs demoFull i) (telegramSize (demoReqs demoFull i) + 1)).head? ≠ some 0xec#8 := by
  have h : ∀ m ∈ demoFull, m.length ≤ 14 ∧ m.head? ≠ some 0xec#8 := by decide +kernel
  have hg : (demoFull.getD i [0xdf#8]).length ≤ 14 ∧ (demoFull.getD i [0xdf#8]).head? ≠ some 0xec#8 := by
    rw [List.getD_eq_getElem?_getD]
    cases hi : demoFull[i]? with
    | none => exact ⟨by decide, by decide⟩
    | some m => exact h m (List.mem_of_getElem? hi)
  unfold demoReqs
  rw [demo_message _ _ hg.1]
  exact hg.2

/-- The first transmission was lost, the second one duplicated. -/
def demoLossy : Dialogue BootDev :=
  { dialogue demoEnv demoInfo demoDev demoConnect 8 with
    sys := { connected demoEnv demoInfo demoDev demoConnect 8 with
      toDevice := [demoReqs demoFull 0, demoReqs demoFull 0] } }

theorem demoLossy_reach : demoReach demoLossy := by
  have r0 : demoReach (dialogue demoEnv demoInfo demoDev demoConnect 8) := .start
  have r1 := DReach.step _ _ r0 (.clientSend _ (Nat.le_refl _))
  have r2 := DReach.step _ _ r1 (.lose _ [] (demoReqs demoFull 0) [] rfl)
  have r3 := DReach.step _ _ r2 (.clientSend _ (Nat.le_refl _))
  exact DReach.step _ _ r3 (.dup _ [] (demoReqs demoFull 0) [] rfl)

set_option maxRecDepth 100000 in
/-- Some rounds later the client has eight answers, all of them success, and the theorem says what the flash
holds. -/
example : ∃ v, (dRounds 22 demoLossy).sys.dev.app.st = some v ∧
    Holds v.hw.flash 0x1000 demoImage ∧ startup demoEnv v.hw.flash false false = some 0x1000#32 :=
  C108_confirmed_update_partial demoEnv demoLayout demoInfo _ _ [] (by simp) demoStart [] rfl 256 (by decide)
    (by decide) demoUid demoImage (by decide) 0x1000 0x1000 (by decide) (by decide) false 0x1101#16 0x1105#16
    (demoReqs demoFull) demoAck (demo_transmits _ (by decide +kernel)) demo_acks demo_noDecompress demoDev demoConnect 8
    demo_connects _ (dRounds_reach 22 demoLossy_reach) (by decide +kernel) (by decide +kernel)

end Verif.Boot
