import Verif.Com.PropsEnd

/-!
# C103: what one device writes again and again, another device has in the end

Two devices over their whole common history. The object `j` of the device `a` and the object `i` of the device `b` are
linked; `a` writes `j`, does whatever else it does, and calls its group-telegram sender; the telegrams go over a lossy line;
`b` processes what it receives, gets telegrams from others and does whatever else it does.
-/

namespace Verif.Com

open Verif.Bus (Transfer transferLog delivered NewMessage repeated frameOf prepareTelegram lastDelivered at' Out)

/-! ## Specification -/

/-- How the two devices are wired: `j` may send, `i` has its group address, may be written and has the same type; no other
object of the sending device sends to a group address of `i`, or to one of `j` itself. -/
structure Wired (B : Bcu) (C : Config) (j : Nat) (B' : Bcu) (C' : Config) (i : Nat) : Prop where
  sep : Separate B C
  sep' : Separate B' C'
  hj : j < C.objs.length
  hi : i < C'.objs.length
  sends : CanSend C j
  linked : Linked C' (sendAddr C j) i
  writable : Writable C'.objs[i]
  type : C'.objs[i].type = C.objs[j].type
  only : ∀ k, CanSend C k → k ≠ j → ¬ Linked C' (sendAddr C k) i
  alone : ∀ k, CanSend C k → k ≠ j → ¬ (Linked C (sendAddr C k) j ∧ Writable C.objs[j])

/-- Both devices: the sender, what the link layer of the receiver has been through, and the receiver. -/
structure Pair where
  a : St
  eb : List Bus.Ev
  b : St

/-- What can happen. -/
inductive Happening
  | write (v : U32)
  | busy
  | call
  | remote

/-- The frame is a group write to the address. -/
def WriteTo (g : Word) (f : List Byte) : Prop := destOf (at' f) = g.toNat ∧ serviceOf (at' f) = .write

/-- One thing happens.

* `write`: the application of `a` calls `objectWrite(j, v)`.
* `busy`: `a` does anything else - other objects, received telegrams - but leaves the value of `j` and its request alone.
* `idle`: `a` calls the group-telegram sender, and there is nothing to send.
* `sends`: `a` calls it and it sends. The telegram goes over the line, on which frames and acknowledgements may be lost;
  if it was the request of `j`, `a` is told success in the end. What `b` receives it processes.
* `remote`: `b` does anything else - its application, telegrams of other devices - but nobody else writes to the group address
  of `j`, and the value of `i` is left alone. -/
inductive Happens (B : Bcu) (C : Config) (j : Nat) (B' : Bcu) (C' : Config) (i : Nat) (hj : j < C.objs.length)
    (hi : i < C'.objs.length) : Pair → Happening → Pair → Prop
  | write (w : Pair) (v : U32) : Happens B C j B' C' i hj hi w (.write v) { w with a := { w.a with mem := objectWrite B w.a.mem j v } }
  | busy (w : Pair) (a' : St) : a'.next = w.a.next → Configured B a'.mem C →
      value B a'.mem C.objs[j] = value B w.a.mem C.objs[j] → (Pending a'.mem C j ↔ Pending w.a.mem C j) →
      (WantsRead a'.mem C j ↔ WantsRead w.a.mem C j) → Happens B C j B' C' i hj hi w .busy { w with a := a' }
  | idle (w : Pair) (a' : St) (frames : List (List Byte)) : sendNextGroupTelegram B w.a = (a', false, frames) →
      Happens B C j B' C' i hj hi w .call { w with a := a' }
  | sends (w : Pair) (a' : St) (frames : List (List Byte)) (ea : List Bus.Ev) (own : Word) (ms : List (Bus.Who × Bus.Ev)) :
      sendNextGroupTelegram B w.a = (a', true, frames) →
      Transfer ea w.eb own (handedOver a').1 (handedOver a').2 ms →
      (Pending w.a.mem C j → ¬ Pending a'.mem C j →
        Out.finished true ∈ Bus.of .a (transferLog ea w.eb own (handedOver a').1 (handedOver a').2 ms)) →
      Happens B C j B' C' i hj hi w .call ⟨a', w.eb ++ Bus.of .b ms,
        if delivered (Bus.of .b (transferLog ea w.eb own (handedOver a').1 (handedOver a').2 ms)) = [] then w.b
        else (receiveGroup B' w.b (receivedTel (w.eb ++ Bus.of .b ms))).1⟩
  | remote (w : Pair) (more : List Bus.Ev) (b' : St) : Configured B' b'.mem C' →
      value B' b'.mem C'.objs[i] = value B' w.b.mem C'.objs[i] →
      (∀ f ∈ delivered (Bus.run (Bus.run Bus.boot w.eb).1 more).2, ¬ WriteTo (sendAddr C j) f) →
      Happens B C j B' C' i hj hi w .remote ⟨w.a, w.eb ++ more, b'⟩

/-- A history. -/
inductive History (B : Bcu) (C : Config) (j : Nat) (B' : Bcu) (C' : Config) (i : Nat) (hj : j < C.objs.length)
    (hi : i < C'.objs.length) : Pair → List Happening → Pair → Prop
  | nil (w) : History B C j B' C' i hj hi w [] w
  | snoc {w xs w1 x w2} : History B C j B' C' i hj hi w xs w1 → Happens B C j B' C' i hj hi w1 x w2 →
      History B C j B' C' i hj hi w (xs ++ [x]) w2

/-- One more happening for `lastWritten`. -/
def noted (s : Option (U32 × Nat)) : Happening → Option (U32 × Nat)
  | .write v => some (v, 0)
  | .call => s.map fun p => (p.1, p.2 + 1)
  | _ => s

/-- The value written last, and how often the sender was called since. -/
def lastWritten (xs : List Happening) : Option (U32 × Nat) := xs.foldl noted none

/-! ## Lemmas -/

/-- Delivered frames have at least 8 bytes. -/
theorem delivered_length (es : List Bus.Ev) : ∀ f, Out.deliver f ∈ (Bus.run Bus.boot es).2 → 8 ≤ f.length := by
  induction es using Bus.snoc_ind with
  | h0 => intro f h; simp [Bus.run] at h
  | h1 es e ih =>
    intro f h
    rw [Bus.run_append] at h
    simp only [List.mem_append] at h
    rcases h with h | h
    · exact ih f h
    · simp only [Bus.run, List.append_nil] at h
      cases e with
      | irq x =>
        obtain ⟨_, _, _, _, _, h8, _⟩ := Bus.C13_filter_partial es x f h
        exact h8
      | _ => exact ((Bus.step_deliver h).1 : False).elim

/-- Two telegrams with the same bytes from the destination address up to `n`. -/
def Same (n : Nat) (t t' : Tel) : Prop := ∀ k, 3 ≤ k → k < n → t k = t' k

theorem Same.dest {n : Nat} {t t' : Tel} (h : Same n t t') (hn : 8 ≤ n) : destOf t = destOf t' := by
  unfold destOf
  rw [h 3 (by omega) (by omega), h 4 (by omega) (by omega)]

theorem Same.service {n : Nat} {t t' : Tel} (h : Same n t t') (hn : 8 ≤ n) : serviceOf t = serviceOf t' := by
  unfold serviceOf
  rw [h 6 (by omega) (by omega), h 7 (by omega) (by omega)]

theorem Same.size {n : Nat} {t t' : Tel} (h : Same n t t') (hn : 8 ≤ n) : telegramSize t = telegramSize t' := by
  unfold telegramSize
  rw [h 5 (by omega) (by omega)]

theorem Same.payload {n ty : Nat} {t t' : Tel} (h : Same n t t') (hn : 8 ≤ n) (hb : ¬ ty < 6 → 8 + bytesOf ty ≤ n) :
    payload ty t = payload ty t' := by
  apply payload_ext
  · intro _; exact h 7 (by omega) (by omega)
  · intro ht k hk
    have := hb ht
    exact h (8 + k) (by omega) (by omega)

theorem body_dest {t : Tel} {g : Word} (h3 : t 3 = BitVec.ofNat 8 (g.toNat / 256)) (h4 : t 4 = BitVec.ofNat 8 g.toNat) :
    destOf t = g.toNat := by
  have hg := g.isLt
  unfold destOf
  rw [h3, h4, BitVec.toNat_ofNat, BitVec.toNat_ofNat]
  omega

/-- What is in the buffer after an object was sent. -/
structure InBuffer (B : Bcu) (C : Config) (s s' : St) (k : Nat) (hk : k < C.objs.length) : Prop where
  size : 8 ≤ telegramSize s'.buf
  dest : destOf s'.buf = (sendAddr C k).toNat
  read : WantsRead s.mem C k → serviceOf s'.buf = .read
  write : ¬ WantsRead s.mem C k → (C.objs[k].type < 6 → ((value B s.mem C.objs[k]).headD 0#8).toNat < 64) →
    serviceOf s'.buf = .write ∧ payload C.objs[k].type s'.buf = value B s.mem C.objs[k]
  long : ¬ WantsRead s.mem C k → ¬ C.objs[k].type < 6 → telegramSize s'.buf = 8 + bytesOf C.objs[k].type

theorem inBuffer {B : Bcu} {C : Config} {s s' : St} {k : Nat} {hk : k < C.objs.length} {fr : List (List Byte)}
    (h : SendsObject B C s s' k hk fr) : InBuffer B C s s' k hk := by
  obtain ⟨f, _, hfb, hr, hv⟩ := h.frame
  have hc : Carries s'.buf f := by
    intro n _ hn
    have : f[n]? = some (s'.buf n) := by
      rw [hfb, List.getElem?_map, List.getElem?_range (by simpa using hn)]; rfl
    exact (Option.some.inj ((List.getElem?_eq_getElem hn).symm.trans this)).symm
  by_cases hw : WantsRead s.mem C k
  · have hb := carries_body (hr hw) hc
    have e : readBody (sendAddr C k) = [BitVec.ofNat 8 ((sendAddr C k).toNat / 256), BitVec.ofNat 8 (sendAddr C k).toNat,
      0xe1#8, 0#8, 0#8] := rfl
    rw [e] at hb
    have h5 : s'.buf 5 = 0xe1#8 := hb 2 (by simp)
    have h6 : s'.buf 6 = 0#8 := hb 3 (by simp)
    have h7 : s'.buf 7 = 0#8 := hb 4 (by simp)
    refine ⟨?_, body_dest (hb 0 (by simp)) (hb 1 (by simp)), fun _ => ?_, fun c => absurd hw c, fun c => absurd hw c⟩
    · unfold telegramSize; rw [h5]; decide
    · unfold serviceOf; rw [h6, h7]; decide
  · have hf := hv hw
    have hb := carries_body hf hc
    have hlen := frame_size (value_length B _ _) hf hfb
    have hl := hf.2.1
    have hb2 : 5 ≤ (valueBody (sendAddr C k) C.objs[k] (value B s.mem C.objs[k]) 0x80#8).length := by
      unfold valueBody be16
      split <;> simp <;> omega
    refine ⟨by omega, ?_, fun c => absurd c hw, fun _ hbits => ?_, fun _ ht => ?_⟩
    · exact body_dest ((hb 0 (by omega)).trans (by simp [valueBody, be16])) ((hb 1 (by omega)).trans (by simp [valueBody, be16]))
    · obtain ⟨_, d2, d3⟩ := body_decoded (Or.inl rfl) (value_length B s.mem _) hbits hf hc
      exact ⟨by rw [d3, if_pos rfl], d2⟩
    · have : (valueBody (sendAddr C k) C.objs[k] (value B s.mem C.objs[k]) 0x80#8).length = 5 + bytesOf C.objs[k].type := by
        unfold valueBody be16
        rw [if_neg ht]
        simp [value_length]
        omega
      omega

/-- Answering read requests keeps the configuration, and the objects that are not on the address. -/
theorem answers_keep {B : Bcu} {C : Config} {g : Word} {os : List Nat} {m m' : Mem} {fs : List (List Byte)}
    (h : Answers B C g os m m' fs) (H : Configured B m C) :
    Configured B m' C ∧ ∀ i, (hi : i < C.objs.length) → ¬ Linked C g i → value B m' C.objs[i] = value B m C.objs[i] := by
  induction h with
  | nil m => exact ⟨H, fun _ _ _ => rfl⟩
  | cons ho frame carries sync rest ih =>
    obtain ⟨h1, h2⟩ := ih (H.frame sync.keepRest)
    refine ⟨h1, fun i hi hn => ?_⟩
    rw [h2 i hi hn, sync.keepValue i hi (fun c => hn c.1)]

/-- A received group telegram keeps the configuration, and the objects that are not on its address. -/
theorem receive_keeps {B : Bcu} {C : Config} (S : Separate B C) (s : St) (H : Configured B s.mem C) (tel : Tel) (g : Word)
    (hg : destOf tel = g.toNat) :
    Configured B (receiveGroup B s tel).1.mem C ∧
    ∀ i, (hi : i < C.objs.length) → ¬ Linked C g i → value B (receiveGroup B s tel).1.mem C.objs[i] = value B s.mem C.objs[i] := by
  have hv : serviceOf tel = .write ∨ serviceOf tel = .response → _ := fun hs =>
    (⟨H.frame (C55_receive_value S s H tel g hg hs).1.keepRest, fun i hi hn =>
      (C55_receive_value S s H tel g hg hs).1.keepValue i hi (fun c => hn c.1)⟩ :
      Configured B (receiveGroup B s tel).1.mem C ∧ ∀ i, (hi : i < C.objs.length) → ¬ Linked C g i →
        value B (receiveGroup B s tel).1.mem C.objs[i] = value B s.mem C.objs[i])
  cases hs : serviceOf tel with
  | read => exact answers_keep (C56_read_answered S s H tel g hg hs) H
  | write => exact hv (Or.inl hs)
  | response => exact hv (Or.inr hs)
  | other => rw [C55_receive_other B s tel hs]; exact ⟨H, fun _ _ _ => rfl⟩

/-- The scan comes closer to the object. -/
theorem dist_step {n j k next c : Nat} (hk : k < n) (h1 : next % n ≤ k) (hj : j < n) (hne : k ≠ j)
    (hfirst : next % n ≤ j → k < j) (hd : dist n j next + c < n) : dist n j (k + 1) + (c + 1) < n := by
  have hlt := Nat.mod_lt next (by omega : 0 < n)
  unfold dist at hd ⊢
  by_cases hjn : k + 1 = n
  · rw [hjn, Nat.mod_self, if_pos (Nat.zero_le _)]
    by_cases hc : next % n ≤ j
    · have := hfirst hc; omega
    · rw [if_neg hc] at hd; omega
  · rw [Nat.mod_eq_of_lt (by omega : k + 1 < n)]
    by_cases hc : next % n ≤ j
    · have := hfirst hc
      rw [if_pos hc] at hd
      rw [if_pos (by omega)]
      omega
    · rw [if_neg hc] at hd
      by_cases h2 : k + 1 ≤ j
      · omega
      · rw [if_neg h2]; omega

theorem dist_wrap {n j next c : Nat} (hj : j < n) (hgt : j < next % n) (hd : dist n j next + c < n) :
    dist n j (next % n + 1) + (c + 1) < n := by
  have hlt := Nat.mod_lt next (by omega : 0 < n)
  unfold dist at hd ⊢
  rw [if_neg (by omega)] at hd
  by_cases hjn : next % n + 1 = n
  · rw [hjn, Nat.mod_self, if_pos (Nat.zero_le _)]; omega
  · rw [Nat.mod_eq_of_lt (by omega : next % n + 1 < n), if_neg (by omega)]; omega

/-- What holds throughout a history. -/
structure Inv (B : Bcu) (C : Config) (j : Nat) (B' : Bcu) (C' : Config) (i : Nat) (hj : j < C.objs.length)
    (hi : i < C'.objs.length) (w : Pair) (s : Option (U32 × Nat)) : Prop where
  ca : Configured B w.a.mem C
  cb : Configured B' w.b.mem C'
  seen : ∀ g, lastDelivered (Bus.run Bus.boot w.eb).2 = some g → WriteTo (sendAddr C j) g →
    g.length = telegramSize (at' g) + 1 ∧ payload C'.objs[i].type (at' g) = value B' w.b.mem C'.objs[i]
  last : ∀ v c, s = some (v, c) → (C.objs[j].type < 6 → v.toNat % 256 < 64) →
    number (value B w.a.mem C.objs[j]) = v.toNat % 256 ^ bytesOf C.objs[j].type ∧
    ((¬ Pending w.a.mem C j ∧ value B' w.b.mem C'.objs[i] = value B w.a.mem C.objs[j]) ∨
     (Pending w.a.mem C j ∧ ¬ WantsRead w.a.mem C j ∧ dist C.objs.length j w.a.next + c < C.objs.length))

section
variable {B B' : Bcu} {C C' : Config} {j i : Nat} (W : Wired B C j B' C' i)
include W

theorem inv_write {w : Pair} {s : Option (U32 × Nat)} (I : Inv B C j B' C' i W.hj W.hi w s) (v : U32) :
    Inv B C j B' C' i W.hj W.hi { w with a := { w.a with mem := objectWrite B w.a.mem j v } } (some (v, 0)) := by
  obtain ⟨w1, w2, _, w4, w5, w6⟩ := C16_write_read I.ca j W.hj v
  refine ⟨?_, I.cb, I.seen, ?_⟩
  · apply I.ca.frame
    intro a ha
    apply w6 a
    · intro hc; exact ha (Or.inr ⟨_, List.getElem_mem W.hj, hc⟩)
    · intro hc; exact ha (Or.inl (hc ▸ flagByte_inFlags W.hj))
  · intro v' c hs _
    obtain ⟨rfl, rfl⟩ : v = v' ∧ 0 = c := by simpa using hs
    refine ⟨w2, Or.inr ⟨?_, ?_, ?_⟩⟩
    · unfold Pending; rw [w4]; decide
    · unfold WantsRead; rw [w4]; decide
    · have := Nat.mod_lt w.a.next (Nat.lt_of_le_of_lt (Nat.zero_le _) W.hj)
      have := W.hj
      simp only
      unfold dist
      split <;> omega

/-- The telegram of another object of `a`. -/
theorem inv_other {w : Pair} {s : Option (U32 × Nat)} (I : Inv B C j B' C' i W.hj W.hi w s) {a' : St} {b' : St}
    {eb' : List Bus.Ev} (ca : Configured B a'.mem C) (cb : Configured B' b'.mem C')
    (hv : value B a'.mem (C.objs[j]'W.hj) = value B w.a.mem (C.objs[j]'W.hj)) (hp : Pending a'.mem C j ↔ Pending w.a.mem C j)
    (hr : WantsRead a'.mem C j ↔ WantsRead w.a.mem C j)
    (hb : value B' b'.mem (C'.objs[i]'W.hi) = value B' w.b.mem (C'.objs[i]'W.hi))
    (hseen : ∀ g, lastDelivered (Bus.run Bus.boot eb').2 = some g → WriteTo (sendAddr C j) g →
      lastDelivered (Bus.run Bus.boot w.eb).2 = some g)
    (up : Nat → Nat)
    (hd : Pending w.a.mem C j → ∀ c, dist C.objs.length j w.a.next + c < C.objs.length →
      dist C.objs.length j a'.next + up c < C.objs.length) :
    Inv B C j B' C' i W.hj W.hi ⟨a', eb', b'⟩ (s.map fun p => (p.1, up p.2)) := by
  refine ⟨ca, cb, ?_, ?_⟩
  · intro g h1 h2
    simp only
    rw [hb]
    exact I.seen g (hseen g h1 h2) h2
  · intro v c hs hfit
    obtain ⟨c0, hs0, rfl⟩ : ∃ c0, s = some (v, c0) ∧ up c0 = c := by
      cases s with
      | none => simp at hs
      | some p =>
        simp only [Option.map_some, Option.some.injEq, Prod.mk.injEq] at hs
        exact ⟨p.2, by rw [← hs.1], hs.2⟩
    obtain ⟨l1, l2⟩ := I.last v c0 hs0 hfit
    simp only
    rw [hv, hb, hp, hr]
    refine ⟨l1, ?_⟩
    rcases l2 with l2 | ⟨l2, l3, l4⟩
    · exact Or.inl l2
    · exact Or.inr ⟨l2, l3, hd l2 _ l4⟩

/-- A telegram goes over the line. -/
theorem inv_sends {w : Pair} {s : Option (U32 × Nat)} (I : Inv B C j B' C' i W.hj W.hi w s) {a' : St} {frames : List (List Byte)}
    {ea : List Bus.Ev} {own : Word} {ms : List (Bus.Who × Bus.Ev)}
    (hsend : sendNextGroupTelegram B w.a = (a', true, frames))
    (hT : Transfer ea w.eb own (handedOver a').1 (handedOver a').2 ms)
    (hok : Pending w.a.mem C j → ¬ Pending a'.mem C j →
        Out.finished true ∈ Bus.of .a (transferLog ea w.eb own (handedOver a').1 (handedOver a').2 ms)) :
    Inv B C j B' C' i W.hj W.hi ⟨a', w.eb ++ Bus.of .b ms,
        if delivered (Bus.of .b (transferLog ea w.eb own (handedOver a').1 (handedOver a').2 ms)) = [] then w.b
        else (receiveGroup B' w.b (receivedTel (w.eb ++ Bus.of .b ms))).1⟩ (s.map fun p => (p.1, p.2 + 1)) := by
  have hpos : 0 < C.objs.length := Nat.lt_of_le_of_lt (Nat.zero_le _) W.hj
  have hj := W.hj
  rcases C57_send_next W.sep w.a I.ca hpos with hs | ⟨_, hs⟩
  rotate_left
  · rw [hsend] at hs; simp at hs
  obtain ⟨k, hk, hge, ⟨hkp, hkc⟩, hfirst, _, hnext, hso⟩ := hs
  rw [hsend] at hnext hso
  simp only at hnext hso
  have ib := inBuffer hso
  have ca := sends_configured I.ca hso
  -- the frame on the line
  have hF8 := ib.size
  simp only [handedOver] at hT hok
  change Inv B C j B' C' i W.hj W.hi ⟨a', w.eb ++ Bus.of .b ms,
        if delivered (Bus.of .b (transferLog ea w.eb own a'.buf (telegramSize a'.buf) ms)) = [] then w.b
        else (receiveGroup B' w.b (receivedTel (w.eb ++ Bus.of .b ms))).1⟩ (s.map fun p => (p.1, p.2 + 1))
  obtain ⟨F, hF⟩ : ∃ F, frameOf (prepareTelegram own a'.buf (telegramSize a'.buf)) = F := ⟨_, rfl⟩
  have hFl : F.length = telegramSize a'.buf + 1 := by
    rw [← hF]; exact (frame_at own a'.buf 3 (by omega) (by omega)).2
  have hFs : Same (telegramSize a'.buf) (at' F) a'.buf := by
    intro n h3 hn; rw [← hF]; exact (frame_at own a'.buf n h3 hn).1
  have hRl : (repeated F).length = telegramSize a'.buf + 1 := by rw [Bus.repeated_length, hFl]
  have hRs : Same (telegramSize a'.buf) (at' (repeated F)) a'.buf := by
    intro n h3 hn
    rw [(Bus.repetition_of F (by omega)).2.2 n (by omega) (by omega)]
    exact hFs n h3 hn
  have hlog := (Bus.netRun_b_boot ea w.eb own a'.buf (telegramSize a'.buf) ms).2
  -- another object: its value in `a` and the one in `b` are as before
  have hother : k ≠ j → value B a'.mem C.objs[j] = value B w.a.mem C.objs[j] ∧ flags a'.mem C j = flags w.a.mem C j := by
    intro hkj
    refine hso.keeps j hj (fun e => hkj e.symm) ?_
    rintro ⟨_, h1, h2⟩
    exact W.alone k hkc hkj ⟨h1, h2⟩
  have hdist : k ≠ j → Pending w.a.mem C j → ∀ c, dist C.objs.length j w.a.next + c < C.objs.length →
      dist C.objs.length j a'.next + (c + 1) < C.objs.length := by
    intro hkj hp c hd
    rw [hnext]
    refine dist_step hk hge hj hkj ?_ hd
    intro hle
    apply Nat.lt_of_not_le
    intro hc
    exact hfirst j hle (by omega) ⟨hp, W.sends⟩
  by_cases hdel : delivered (Bus.of .b (transferLog ea w.eb own a'.buf (telegramSize a'.buf) ms)) = []
  · -- nothing new for the receiver
    rw [if_pos hdel]
    have hlast : lastDelivered (Bus.run Bus.boot (w.eb ++ Bus.of .b ms)).2 = lastDelivered (Bus.run Bus.boot w.eb).2 := by
      rw [hlog, Bus.lastDelivered_of_delivered]
      have hd : delivered (Bus.of .b (Bus.netRun (Bus.net0 ea w.eb own a'.buf (telegramSize a'.buf)) ms).2) = [] := hdel
      rw [hd]
      rfl
    by_cases hkj : k = j
    · subst hkj
      refine ⟨ca, I.cb, fun g h1 h2 => I.seen g (hlast ▸ h1) h2, ?_⟩
      intro v c hs hfit
      obtain ⟨c0, hs0⟩ : ∃ c0, s = some (v, c0) := by
        cases s with
        | none => simp at hs
        | some p =>
          simp only [Option.map_some, Option.some.injEq, Prod.mk.injEq] at hs
          exact ⟨p.2, by rw [← hs.1]⟩
      obtain ⟨l1, l2⟩ := I.last v c0 hs0 hfit
      rcases l2 with ⟨l2, _⟩ | ⟨_, l3, _⟩
      · exact absurd hkp l2
      have hbits : C.objs[k].type < 6 → ((value B w.a.mem C.objs[k]).headD 0#8).toNat < 64 := by
        intro ht
        have hb1 : bytesOf C.objs[k].type = 1 := type_small ht
        rw [← number_head (by rw [value_length, hb1]), l1, hb1]
        exact hfit ht
      obtain ⟨q1, q2⟩ := ib.write l3 hbits
      have hnp : ¬ Pending a'.mem C k := by
        unfold Pending
        rw [hso.flags]
        have : ∀ x : Byte, ¬ ((x &&& 8#8) ||| 1#8) &&& 3#8 = 3#8 := by decide +kernel
        exact this _
      refine ⟨by simp only; rw [hso.value]; exact l1, Or.inl ⟨hnp, ?_⟩⟩
      -- the receiver took it for a repetition of what it has
      have hold : ¬ NewMessage (lastDelivered (Bus.run Bus.boot w.eb).2) (repeated F) := by
        intro hnew
        rcases Bus.C85_success_means_delivered_partial ea w.eb own _ _ ms hT (by rw [hF]; exact hnew) (hok hkp hnp) with h | h
        · rw [hdel] at h; cases h
        · rw [hdel] at h; cases h
      unfold NewMessage at hold
      obtain ⟨_, hold⟩ := not_or.1 hold
      obtain ⟨g, hg⟩ := Classical.not_forall.1 hold
      rw [Classical.not_imp, not_or] at hg
      obtain ⟨hg, _, hsame⟩ := hg
      have hg8 : 8 ≤ g.length := by
        apply delivered_length w.eb
        have : g ∈ delivered (Bus.run Bus.boot w.eb).2 := by
          have h := Bus.lastDelivered_of_delivered [] (Bus.run Bus.boot w.eb).2
          rw [List.nil_append, hg] at h
          cases hgl : (delivered (Bus.run Bus.boot w.eb).2).getLast? with
          | none =>
            rw [hgl] at h
            have h0 : lastDelivered [] = none := rfl
            rw [h0] at h; cases h
          | some x =>
            rw [hgl] at h
            simp only [Option.some.injEq] at h
            rw [h]
            exact List.mem_of_getLast? hgl
        exact Bus.delivered_mem.1 this
      have hag : ∀ n, 3 ≤ n → n < telegramSize a'.buf → n < g.length → at' g n = a'.buf n := by
        intro n h3 hn hgn
        rw [← hRs n h3 hn]
        apply Classical.byContradiction
        intro hne
        exact hsame ⟨n, by omega, by omega, hgn, fun e => hne e.symm⟩
      have hs8 : Same 8 (at' g) a'.buf := fun n h3 hn => hag n h3 (by omega) (by omega)
      have hwt : WriteTo (sendAddr C k) g :=
        ⟨by rw [hs8.dest (Nat.le_refl _)]; exact ib.dest, by rw [hs8.service (Nat.le_refl _)]; exact q1⟩
      obtain ⟨s1, s2⟩ := I.seen g hg hwt
      rw [hs8.size (Nat.le_refl _)] at s1
      have hsN : Same (telegramSize a'.buf) (at' g) a'.buf := fun n h3 hn => hag n h3 hn (by omega)
      simp only
      rw [← s2, W.type, hso.value, ← q2]
      exact hsN.payload hF8 (fun ht => by rw [ib.long l3 ht]; omega)
    · obtain ⟨o1, o2⟩ := hother hkj
      refine inv_other W I ca I.cb o1 (by unfold Pending; rw [o2]) (by unfold WantsRead; rw [o2]) rfl ?_ (· + 1) (hdist hkj)
      intro g h1 _
      rw [← hlast]; exact h1
  · -- the receiver has got it
    rw [if_neg hdel]
    obtain ⟨g, hgl, hgs, hdg⟩ : ∃ g, g.length = telegramSize a'.buf + 1 ∧ Same (telegramSize a'.buf) (at' g) a'.buf ∧
        delivered (Bus.of .b (transferLog ea w.eb own a'.buf (telegramSize a'.buf) ms)) = [g] := by
      rcases Bus.C85_at_most_once ea w.eb own _ _ ms hT with h | h | h
      · exact absurd h hdel
      · rw [hF] at h; exact ⟨F, hFl, hFs, h⟩
      · rw [hF] at h; exact ⟨repeated F, hRl, hRs, h⟩
    have hlast : lastDelivered (Bus.run Bus.boot (w.eb ++ Bus.of .b ms)).2 = some g := by
      rw [hlog, Bus.lastDelivered_of_delivered]
      have hd : delivered (Bus.of .b (Bus.netRun (Bus.net0 ea w.eb own a'.buf (telegramSize a'.buf)) ms).2) = [g] := hdg
      rw [hd]
      rfl
    have htel : Same (telegramSize a'.buf) (receivedTel (w.eb ++ Bus.of .b ms)) a'.buf := by
      intro n h3 hn
      have h1 := Bus.boot_tel (w.eb ++ Bus.of .b ms) g hlast
      have h2 := Bus.at'_bytes (receivedTel (w.eb ++ Bus.of .b ms)) g.length n (by omega)
      unfold receivedTel at h2 ⊢
      rw [h1] at h2
      rw [← h2]; exact hgs n h3 hn
    generalize receivedTel (w.eb ++ Bus.of .b ms) = tel at htel ⊢
    have hdest : destOf tel = (sendAddr C k).toNat := (htel.dest hF8).trans ib.dest
    obtain ⟨r1, r2⟩ := receive_keeps W.sep' w.b I.cb tel _ hdest
    by_cases hkj : k = j
    · subst hkj
      have hnp : ¬ Pending a'.mem C k := by
        unfold Pending
        rw [hso.flags]
        have : ∀ x : Byte, ¬ ((x &&& 8#8) ||| 1#8) &&& 3#8 = 3#8 := by decide +kernel
        exact this _
      have htake : serviceOf a'.buf = .write →
          value B' (receiveGroup B' w.b tel).1.mem (C'.objs[i]'W.hi) = payload (C'.objs[i]'W.hi).type a'.buf := by
        intro hs
        have hnr : ¬ WantsRead w.a.mem C k := fun c => by rw [ib.read c] at hs; cases hs
        rw [(C55_receive_value W.sep' w.b I.cb tel _ hdest (Or.inl (by rw [htel.service hF8]; exact hs))).1.value i W.hi
          ⟨W.linked, W.hi, W.writable⟩]
        refine htel.payload hF8 (fun ht => ?_)
        rw [W.type] at ht ⊢
        rw [ib.long hnr ht]
        omega
      refine ⟨ca, r1, ?_, ?_⟩
      · intro g' hg' hwt
        obtain rfl : g = g' := by
          have : some g = some g' := by rw [← hlast]; exact hg'
          simpa [noted] using this
        have hs : serviceOf a'.buf = .write := by rw [← hgs.service hF8]; exact hwt.2
        have hnr : ¬ WantsRead w.a.mem C k := fun c => by rw [ib.read c] at hs; cases hs
        refine ⟨by rw [hgs.size hF8]; exact hgl, ?_⟩
        simp only
        rw [htake hs]
        refine hgs.payload hF8 (fun ht => ?_)
        rw [W.type] at ht ⊢
        rw [ib.long hnr ht]
        omega
      · intro v c hs hfit
        obtain ⟨c0, hs0⟩ : ∃ c0, s = some (v, c0) := by
          cases s with
          | none => simp at hs
          | some p =>
            simp only [Option.map_some, Option.some.injEq, Prod.mk.injEq] at hs
            exact ⟨p.2, by rw [← hs.1]⟩
        obtain ⟨l1, l2⟩ := I.last v c0 hs0 hfit
        rcases l2 with ⟨l2, _⟩ | ⟨_, l3, _⟩
        · exact absurd hkp l2
        have hbits : C.objs[k].type < 6 → ((value B w.a.mem C.objs[k]).headD 0#8).toNat < 64 := by
          intro ht
          have hb1 : bytesOf C.objs[k].type = 1 := type_small ht
          rw [← number_head (by rw [value_length, hb1]), l1, hb1]
          exact hfit ht
        obtain ⟨q1, q2⟩ := ib.write l3 hbits
        refine ⟨by simp only; rw [hso.value]; exact l1, Or.inl ⟨hnp, ?_⟩⟩
        simp only
        rw [htake q1, W.type, q2, hso.value]
    · obtain ⟨o1, o2⟩ := hother hkj
      have hnl := W.only k hkc hkj
      refine inv_other W I ca r1 o1 (by unfold Pending; rw [o2]) (by unfold WantsRead; rw [o2]) (r2 i W.hi hnl) ?_
        (· + 1) (hdist hkj)
      intro g' hg' hwt
      exfalso
      obtain rfl : g = g' := by
        have : some g = some g' := by rw [← hlast]; exact hg'
        simpa [noted] using this
      apply hnl
      have : sendAddr C k = sendAddr C j := by
        apply BitVec.eq_of_toNat_eq
        rw [← ib.dest, ← hgs.dest hF8]
        exact hwt.1
      rw [this]
      exact W.linked

theorem inv_step {w w' : Pair} {x : Happening} {s : Option (U32 × Nat)} (I : Inv B C j B' C' i W.hj W.hi w s)
    (h : Happens B C j B' C' i W.hj W.hi w x w') :
    Inv B C j B' C' i W.hj W.hi w' (noted s x) := by
  have hj := W.hj
  cases h with
  | write v => exact inv_write W I v
  | busy a' h1 h2 h3 h4 h5 =>
    have := inv_other W I (a' := a') (b' := w.b) (eb' := w.eb) h2 I.cb h3 h4 h5 rfl (fun _ h _ => h) id
      (fun _ c h => by rw [h1]; exact h)
    simpa [noted] using this
  | idle a' frames hs =>
    rcases C57_send_next W.sep w.a I.ca (by omega) with ⟨_, _, _, _, _, h, _⟩ | ⟨h1, h2⟩
    · rw [hs] at h; cases h
    rw [hs] at h2
    simp only [Prod.mk.injEq] at h2
    obtain ⟨h2, _⟩ := h2
    subst h2
    refine inv_other W I (a' := { w.a with next := w.a.next % C.objs.length + 1 }) (b' := w.b) (eb' := w.eb) I.ca I.cb rfl Iff.rfl Iff.rfl rfl (fun _ h _ => h) (· + 1) ?_
    intro hp c hd
    refine dist_wrap hj ?_ hd
    apply Nat.lt_of_not_le
    intro hc
    exact h1 j hc hj ⟨hp, W.sends⟩
  | sends a' frames ea own ms h1 h2 h3 => exact inv_sends W I h1 h2 h3
  | remote more b' h1 h2 h3 =>
    have := inv_other W I (a' := w.a) (b' := b') (eb' := w.eb ++ more) I.ca h1 rfl Iff.rfl Iff.rfl h2 (by
      intro g hg hwt
      rw [Bus.run_append, Bus.lastDelivered_of_delivered] at hg
      cases hgl : (delivered (Bus.run (Bus.run Bus.boot w.eb).1 more).2).getLast? with
      | none => rw [hgl] at hg; exact hg
      | some x =>
        rw [hgl] at hg
        simp only [Option.some.injEq] at hg
        subst hg
        exact absurd hwt (h3 _ (List.mem_of_getLast? hgl))) id (fun _ c h => h)
    simpa [noted] using this

theorem inv_history {w w' : Pair} {xs : List Happening} (I : Inv B C j B' C' i W.hj W.hi w none)
    (h : History B C j B' C' i W.hj W.hi w xs w') : Inv B C j B' C' i W.hj W.hi w' (lastWritten xs) := by
  induction h with
  | nil => exact I
  | snoc _ hx ih =>
    unfold lastWritten at ih ⊢
    rw [List.foldl_append]
    exact inv_step W ih hx

end

/-! ## The property -/

/-- **C103.** Two devices with linked objects `j` and `i`, over any common history of writes, calls of the group-telegram sender,
losses on the line, telegrams of third parties and other activities; other objects of the sending device may be pending all the
time, and the same value may be written again. Whenever the request of `j` is not pending any more, and in any case as soon as the
sender has been called as often as the device has objects since the last `objectWrite(j, v)`, `objectRead(i)` at the
receiver returns `v` (reduced to the size of the object). -/
theorem C103_in_step {B B' : Bcu} {C C' : Config} {j i : Nat} (W : Wired B C j B' C' i) (w w' : Pair)
    (ha : Configured B w.a.mem C) (hb : Configured B' w.b.mem C')
    (hfresh : ∀ g, lastDelivered (Bus.run Bus.boot w.eb).2 = some g → ¬ WriteTo (sendAddr C j) g)
    (xs : List Happening) (h : History B C j B' C' i W.hj W.hi w xs w') (v : U32) (calls : Nat)
    (hlast : lastWritten xs = some (v, calls)) (hfit : (C.objs[j]'W.hj).type < 6 → v.toNat % 256 < 64)
    (hdone : ¬ Pending w'.a.mem C j ∨ C.objs.length ≤ calls) :
    (objectRead B' w'.b.mem i).toNat = v.toNat % 256 ^ bytesOf (C.objs[j]'W.hj).type := by
  have I0 : Inv B C j B' C' i W.hj W.hi w none :=
    ⟨ha, hb, fun g h1 h2 => absurd h2 (hfresh g h1), fun _ _ h => by cases h⟩
  have I := inv_history W I0 h
  obtain ⟨l1, l2⟩ := I.last v calls hlast hfit
  have heq : value B' w'.b.mem (C'.objs[i]'W.hi) = value B w'.a.mem (C.objs[j]'W.hj) := by
    rcases l2 with ⟨_, l2⟩ | ⟨l2, _, l3⟩
    · exact l2
    · rcases hdone with hd | hd
      · exact absurd l2 hd
      · omega
  rw [objectRead_spec I.cb i W.hi, heq, l1, BitVec.toNat_ofNat, Nat.mod_eq_of_lt]
  exact Nat.lt_of_le_of_lt (Nat.mod_le _ _) v.isLt

/-- **C103.** The request does not stay pending: after as many calls as the device has objects it has been sent. -/
theorem C103_sent {B B' : Bcu} {C C' : Config} {j i : Nat} (W : Wired B C j B' C' i) (w w' : Pair)
    (ha : Configured B w.a.mem C) (hb : Configured B' w.b.mem C')
    (hfresh : ∀ g, lastDelivered (Bus.run Bus.boot w.eb).2 = some g → ¬ WriteTo (sendAddr C j) g)
    (xs : List Happening) (h : History B C j B' C' i W.hj W.hi w xs w') (v : U32) (calls : Nat)
    (hlast : lastWritten xs = some (v, calls)) (hfit : (C.objs[j]'W.hj).type < 6 → v.toNat % 256 < 64)
    (hdone : C.objs.length ≤ calls) : ¬ Pending w'.a.mem C j := by
  have I0 : Inv B C j B' C' i W.hj W.hi w none :=
    ⟨ha, hb, fun g h1 h2 => absurd h2 (hfresh g h1), fun _ _ h => by cases h⟩
  rcases ((inv_history W I0 h).last v calls hlast hfit).2 with ⟨l2, _⟩ | ⟨_, _, l3⟩
  · exact l2
  · omega

/-! ## Demonstration: a switch with two objects (BCU1) and the lamp (mask 0701) -/

/-- The switch: a 1-bit and a 2-byte object on different group addresses. -/
def iC : Config where
  own := 0x1203#16
  groups := [0x0901#16, 0x0A02#16]
  assoc := [(1, 0), (2, 1)]
  objs := [⟨0x50, 0x5C#8, 0⟩, ⟨0x51, 0x5C#8, 8⟩]
  flagsAt := 0x40
  addrAt := 0x116
  assocAt := 0x11F
  commAt := 0x128

def iM : Mem := memOf BCU1 iC

theorem i_inData (a : Nat) : inData BCU1 iC a ↔ a = 0x40 ∨ (0x50 ≤ a ∧ a < 0x53) := by
  simp [inData, inFlags, inValue, valueAt, iC, BCU1, bytesOf]
  omega

theorem i_configured : Configured BCU1 iM iC where
  valid := {
    counts := by decide
    assocs := by decide
    distinct := by decide
    types := by decide
    values := by unfold inSegment; decide
    flags := by unfold inSegment; decide
    tables := by decide
    pointers := by show _ ∧ _; decide
    separate := by
      intro t ht i hi hd
      rw [i_inData] at hd
      have : ∀ t ∈ image BCU1 iC, 0x100 ≤ t.1 := by decide
      have := this t ht
      omega
    flagsSeparate := by
      intro a ha o ho hv
      have : ∀ o ∈ iC.objs, 0x50 ≤ valueAt BCU1 o := by decide
      have h1 := this o ho
      have h2 := hv.1
      have h3 := ha.2
      simp [iC] at h3
      omega }
  tables := by
    have : ∀ t ∈ image BCU1 iC, ∀ i, (h : i < t.2.length) → iM (t.1 + i) = t.2[i] := by decide +kernel
    exact this

theorem i_separate : Separate BCU1 iC := by
  have key : ∀ i, (hi : i < iC.objs.length) → ∀ j, (hj : j < iC.objs.length) → i ≠ j →
      valueAt BCU1 iC.objs[i] + bytesOf iC.objs[i].type ≤ valueAt BCU1 iC.objs[j] ∨
      valueAt BCU1 iC.objs[j] + bytesOf iC.objs[j].type ≤ valueAt BCU1 iC.objs[i] := by decide
  intro i j hi hj hij a ⟨⟨h1, h2⟩, ⟨h3, h4⟩⟩
  have := key i hi j hj hij
  omega

theorem i_wired : Wired BCU1 iC 0 MASK0701 demoC2 1 where
  sep := i_separate
  sep' := demo2_separate
  hj := by decide
  hi := by decide
  sends := ⟨⟨by decide, by unfold MaySend; decide⟩, by decide⟩
  linked := ⟨2, by decide, by decide⟩
  writable := by unfold Writable; decide
  type := by decide
  only := by
    rintro k ⟨⟨hk, _⟩, _⟩ h0 ⟨n, h1, h2⟩
    have hk : k < 2 := hk
    obtain rfl : k = 1 := by omega
    have : ∀ p ∈ demoC2.assoc, demoC2.groups[p.1 - 1]? ≠ some (sendAddr iC 1) := by decide
    exact this _ h1 h2
  alone := by
    rintro k ⟨⟨hk, _⟩, _⟩ h0 ⟨⟨n, h1, h2⟩, _⟩
    have hk : k < 2 := hk
    obtain rfl : k = 1 := by omega
    have : ∀ p ∈ iC.assoc, p.2 = 0 → iC.groups[p.1 - 1]? ≠ some (sendAddr iC 1) := by decide
    exact this _ h1 rfl h2

/-- Anything that `objectWrite` does to another object is a case of `busy`. -/
theorem busy_write {B : Bcu} {C : Config} {j : Nat} {B' : Bcu} {C' : Config} {i : Nat} (W : Wired B C j B' C' i) (w : Pair)
    (ha : Configured B w.a.mem C) (k : Nat) (hk : k < C.objs.length) (hne : k ≠ j) (v : U32) :
    Happens B C j B' C' i W.hj W.hi w .busy { w with a := { w.a with mem := objectWrite B w.a.mem k v } } := by
  obtain ⟨_, _, w3, _, w5, w6⟩ := C16_write_read ha k hk v
  refine .busy w _ rfl ?_ ?_ ?_ ?_
  · apply ha.frame
    intro a ha
    apply w6 a
    · intro hc; exact ha (Or.inr ⟨_, List.getElem_mem hk, hc⟩)
    · intro hc; exact ha (Or.inl (hc ▸ flagByte_inFlags hk))
  · exact w3 _ (List.getElem_mem W.hj) (fun a h => W.sep k j hk W.hj hne a h)
  · unfold Pending; simp only; rw [w5 j W.hj (fun e => hne e.symm)]
  · unfold WantsRead; simp only; rw [w5 j W.hj (fun e => hne e.symm)]

/-- The switch and the lamp at the beginning. -/
def i0 : Pair := ⟨⟨iM, fun _ => 0xEE#8, 0⟩, Bus.dReady, ⟨demoM2, fun _ => 0, 0⟩⟩

/-- The switch is pressed. -/
def i1 : St := { i0.a with mem := objectWrite BCU1 i0.a.mem 0 1#32 }
/-- It has sent. -/
def i2 : St := (sendNextGroupTelegram BCU1 i1).1
/-- The lamp discards the telegram when it has processed it. -/
def iLink1 : List (Bus.Who × Bus.Ev) := eLink ++ Bus.kB (Bus.dSilence 12 ++ [.discard])
/-- The lamp has been switched on. -/
def i2b : St := (receiveGroup MASK0701 i0.b (receivedTel (Bus.dReady ++ Bus.of .b iLink1))).1
theorem i_first : Transfer Bus.dReady Bus.dReady 0x1203#16 (handedOver i2).1 (handedOver i2).2 iLink1 where
  sends := ⟨by decide +kernel, by decide +kernel, by decide +kernel⟩
  quiet := by decide +kernel
  line := by decide +kernel

theorem i_history1 : History BCU1 iC 0 MASK0701 demoC2 1 i_wired.hj i_wired.hi i0 [.write 1#32, .call]
    ⟨i2, Bus.dReady ++ Bus.of .b iLink1, i2b⟩ := by
  have h1 : History BCU1 iC 0 MASK0701 demoC2 1 i_wired.hj i_wired.hi i0 ([] ++ [.write 1#32]) { i0 with a := i1 } :=
    .snoc (.nil i0) (.write i0 1#32)
  have hs : sendNextGroupTelegram BCU1 i1 = (i2, true, (sendNextGroupTelegram BCU1 i1).2.2) := by
    have : (sendNextGroupTelegram BCU1 i1).2.1 = true := by decide +kernel
    rw [i2, ← this]
  have h2 := Happens.sends (B := BCU1) (C := iC) (j := 0) (B' := MASK0701) (C' := demoC2) (i := 1) (hj := i_wired.hj)
    (hi := i_wired.hi) { i0 with a := i1 } i2 _ Bus.dReady 0x1203#16 iLink1 hs i_first (fun _ _ => by decide +kernel)
  rw [if_neg (by decide +kernel)] at h2
  exact .snoc h1 h2

-- the lamp is on
example : (objectRead MASK0701 i2b.mem 1).toNat = 1 :=
  C103_in_step i_wired i0 _ i_configured demo2_configured (by
    intro g hg
    have h0 : lastDelivered (Bus.run Bus.boot i0.eb).2 = none := by decide +kernel
    rw [h0] at hg; cases hg) _ i_history1 1#32 1 rfl (fun _ => by decide) (Or.inl (by unfold Pending; decide +kernel))

/-- The memory of the switch, written out. -/
def iMem (flags value : Byte) : Mem := fun a =>
  if a = 0x40 then flags else if a = 0x50 then value else if a = 0x51 then 0xF4#8 else if a = 0x52 then 1#8 else iM a

theorem iMem_configured (flags value : Byte) : Configured BCU1 (iMem flags value) iC := by
  apply i_configured.frame
  intro a ha
  rw [i_inData] at ha
  unfold iMem
  rw [if_neg (by omega), if_neg (by omega), if_neg (by omega), if_neg (by omega)]

/-- The memory of the lamp, written out: it is on. -/
def iMem2 : Mem := fun a => if a = 0x65E then 1#8 else demoM2 a

theorem iMem2_configured : Configured MASK0701 iMem2 demoC2 := by
  apply demo2_configured.frame
  intro a ha
  rw [demo2_inData] at ha
  unfold iMem2
  rw [if_neg (by omega)]

/-- The application of the switch writes 500 to the other object; nothing else happens there. -/
def i3 : St := ⟨iMem 0x31#8 1#8, fun _ => 0xEE#8, 1⟩
/-- The application of the lamp polls its objects. -/
def i3b : St := ⟨iMem2, fun _ => 0, 0⟩
/-- The switch is pressed again, with the same value. -/
def i4 : St := { i3 with mem := objectWrite BCU1 i3.mem 0 1#32 }
/-- The scan is at the other object, which is sent first. The lamp does not know its address. -/
def i5 : St := (sendNextGroupTelegram BCU1 i4).1

example : destOf i5.buf = (sendAddr iC 1).toNat ∧ Pending i5.mem iC 0 := by unfold Pending; decide +kernel

/-- The telegram of the other object is sent; nobody has answered yet. -/
def iLink2 : List (Bus.Who × Bus.Ev) := Bus.kA (.kick :: Bus.dSilence 20)

/-- What the lamp's link layer has been through after the first telegram. -/
def iEb : List Bus.Ev := Bus.dReady ++ Bus.of .b iLink1

theorem i_second : Transfer Bus.dReady iEb 0x1203#16 (handedOver i5).1 (handedOver i5).2 iLink2 where
  sends := ⟨by decide +kernel, by decide +kernel, by decide +kernel⟩
  quiet := by decide +kernel
  line := by decide +kernel

/-- The switch goes on with other things. -/
def i6 : St := ⟨iMem 0x13#8 1#8, fun _ => 0xEE#8, 2⟩
/-- The second call sends the switch object. -/
def i7 : St := (sendNextGroupTelegram BCU1 i6).1

def iRep : List Byte := [0x9C, 0x12, 0x03, 0x09, 0x01, 0xE1, 0x00, 0x81, 0x1A]

/-- The first transmission is lost; the lamp takes the repetition for one of the telegram it has, acknowledges and drops it. -/
def iLink3 : List (Bus.Who × Bus.Ev) :=
  Bus.kA (.kick :: Bus.dSilence 77) ++ Bus.kA (Bus.dSilence 81) ++
  Bus.kB (iRep.flatMap (fun b => Bus.dChar b (Bus.parityBit b)) ++ [eEnd] ++ Bus.dSilence 2) ++
  Bus.kA (Bus.dAck ++ [.irq Bus.dTimeout])

theorem i_third : Transfer Bus.dReady iEb 0x1203#16 (handedOver i7).1 (handedOver i7).2 iLink3 where
  sends := ⟨by decide +kernel, by decide +kernel, by decide +kernel⟩
  quiet := by decide +kernel
  line := by decide +kernel

/-- What the transfers of the second round leave at the lamp. -/
theorem i_dropped : delivered (Bus.of .b (transferLog Bus.dReady iEb 0x1203#16 (handedOver i5).1 (handedOver i5).2 iLink2)) = [] ∧
    delivered (Bus.of .b (transferLog Bus.dReady iEb 0x1203#16 (handedOver i7).1 (handedOver i7).2 iLink3)) = [] ∧
    Out.finished true ∈ Bus.of .a (transferLog Bus.dReady iEb 0x1203#16 (handedOver i7).1 (handedOver i7).2 iLink3) := by
  decide +kernel

theorem i_history2 : History BCU1 iC 0 MASK0701 demoC2 1 i_wired.hj i_wired.hi i0
    [.write 1#32, .call, .busy, .remote, .write 1#32, .call, .busy, .call] ⟨i7, iEb ++ Bus.of .b iLink3, i3b⟩ := by
  have h1 := i_history1
  have h2 := History.snoc h1 (.busy _ i3 (by decide +kernel) (iMem_configured _ _) (by decide +kernel)
    (by unfold Pending; decide +kernel) (by unfold WantsRead; decide +kernel))
  have h3 := History.snoc h2 (.remote _ [] i3b iMem2_configured (by decide +kernel) (by intro f hf; cases hf))
  have h4 := History.snoc h3 (.write _ 1#32)
  have hs : sendNextGroupTelegram BCU1 i4 = (i5, true, (sendNextGroupTelegram BCU1 i4).2.2) := by
    have : (sendNextGroupTelegram BCU1 i4).2.1 = true := by decide +kernel
    rw [i5, ← this]
  have h5 := History.snoc h4 (.sends _ i5 _ Bus.dReady 0x1203#16 iLink2 hs (by rw [List.append_nil]; exact i_second)
    (fun _ h => absurd (by unfold Pending; decide +kernel) h))
  have h6 := History.snoc h5 (.busy _ i6 (by decide +kernel) (iMem_configured _ _) (by decide +kernel)
    (by unfold Pending; decide +kernel) (by unfold WantsRead; decide +kernel))
  have hs : sendNextGroupTelegram BCU1 i6 = (i7, true, (sendNextGroupTelegram BCU1 i6).2.2) := by
    have : (sendNextGroupTelegram BCU1 i6).2.1 = true := by decide +kernel
    rw [i7, ← this]
  have e2 : Bus.of .b iLink2 = [] := by decide +kernel
  have h7 := History.snoc h6 (.sends _ i7 _ Bus.dReady 0x1203#16 iLink3 hs (by
      simp only [List.append_nil, e2]; exact i_third) (fun _ _ => by
      simp only [List.append_nil, e2]; exact i_dropped.2.2))
  simp only [List.append_nil, e2] at h7
  have d1 : delivered (Bus.of .b (transferLog Bus.dReady (Bus.dReady ++ Bus.of .b iLink1) 0x1203#16 (handedOver i5).1
    (handedOver i5).2 iLink2)) = [] := i_dropped.1
  have d2 : delivered (Bus.of .b (transferLog Bus.dReady (Bus.dReady ++ Bus.of .b iLink1) 0x1203#16 (handedOver i7).1
    (handedOver i7).2 iLink3)) = [] := i_dropped.2.1
  rw [if_pos d2, if_pos d1] at h7
  exact h7

-- two calls after the second write, though the lamp has dropped the telegram
example : (objectRead MASK0701 i3b.mem 1).toNat = 1 :=
  C103_in_step i_wired i0 _ i_configured demo2_configured (by
    intro g hg
    have h0 : lastDelivered (Bus.run Bus.boot i0.eb).2 = none := by decide +kernel
    rw [h0] at hg; cases hg) _ i_history2 1#32 2 rfl (fun _ => by decide) (Or.inr (by decide))

end Verif.Com
