import Verif.Com.PropsEnd

/-!
# C91: asking another device for a value

`requestObjectRead` on one device, the group-telegram sender, the link layers of both devices over a lossy line, the
answer of the other device, the way back and `objectRead` on the asking device.
-/

namespace Verif.Com

open Verif.Bus (Transfer transferLog delivered NewMessage repeated frameOf prepareTelegram lastDelivered at' Out)

/-- What a read request in the buffer says about its length. -/
theorem read_size {t : Tel} {f : List Byte} {g : Word} (hf : IsFrame f (readBody g)) (hb : f = (List.range f.length).map t) :
    f.length = telegramSize t := by
  have hc : Carries t f := by
    intro k _ hk
    have : f[k]? = some (t k) := by
      rw [hb, List.getElem?_map, List.getElem?_range (by simpa using hk)]; rfl
    exact (Option.some.inj ((List.getElem?_eq_getElem hk).symm.trans this)).symm
  have hx := carries_body hf hc
  rw [hf.2.1]
  unfold telegramSize
  rw [show t 5 = 0xe1#8 from hx 2 (by simp [readBody, be16])]
  rfl

/-- A receiver of a read request finds a read request. -/
theorem read_decoded {tel : Tel} {f : List Byte} {g : Word} (hf : IsFrame f (readBody g)) (hc : Carries tel f) :
    destOf tel = g.toNat ∧ serviceOf tel = .read := by
  have hb := carries_body hf hc
  have hg := g.isLt
  have h3 : tel 3 = BitVec.ofNat 8 (g.toNat / 256) := hb 0 (by simp [readBody, be16])
  have h4 : tel 4 = BitVec.ofNat 8 g.toNat := hb 1 (by simp [readBody, be16])
  have h6 : tel 6 = 0#8 := hb 3 (by simp [readBody, be16])
  have h7 : tel 7 = 0#8 := hb 4 (by simp [readBody, be16])
  constructor
  · unfold destOf
    rw [h3, h4, BitVec.toNat_ofNat, BitVec.toNat_ofNat]
    omega
  · unfold serviceOf
    rw [h6, h7]
    decide

/-- A telegram that was transmitted successfully is what the other device holds as received. -/
theorem link_carries {ea eb : List Bus.Ev} {own : Word} {t : Tel} {ms : List (Bus.Who × Bus.Ev)} {f : List Byte}
    (hT : Transfer ea eb own t (telegramSize t) ms)
    (hnew : NewMessage (lastDelivered (Bus.run Bus.boot eb).2) (repeated (frameOf (prepareTelegram own t (telegramSize t)))))
    (hok : Out.finished true ∈ Bus.of .a (transferLog ea eb own t (telegramSize t) ms))
    (hlen : f.length = telegramSize t) (hfb : f = (List.range f.length).map t) :
    Carries (receivedTel (eb ++ Bus.of .b ms)) f := by
  obtain ⟨g, hg, hdel⟩ : ∃ g, (g = frameOf (prepareTelegram own t (telegramSize t)) ∨
      g = repeated (frameOf (prepareTelegram own t (telegramSize t)))) ∧
      delivered (Bus.of .b (transferLog ea eb own t (telegramSize t) ms)) = [g] := by
    rcases Bus.C85_success_means_delivered_partial ea eb own _ _ ms hT hnew hok with h | h
    · exact ⟨_, Or.inl rfl, h⟩
    · exact ⟨_, Or.inr rfl, h⟩
  have hlast : lastDelivered (Bus.run Bus.boot (eb ++ Bus.of .b ms)).2 = some g := by
    have := (Bus.netRun_b_boot ea eb own t (telegramSize t) ms).2
    rw [this, Bus.lastDelivered_of_delivered]
    have hd : delivered (Bus.of .b (Bus.netRun (Bus.net0 ea eb own t (telegramSize t)) ms).2) = [g] := hdel
    rw [hd]
    rfl
  have htel : ∀ k < g.length, receivedTel (eb ++ Bus.of .b ms) k = at' g k := by
    intro k hk
    have h1 := Bus.boot_tel (eb ++ Bus.of .b ms) g hlast
    have h2 := Bus.at'_bytes (receivedTel (eb ++ Bus.of .b ms)) g.length k hk
    unfold receivedTel at h2 ⊢
    rw [h1] at h2
    exact h2.symm
  exact carries_delivered hlen hfb hg htel

/-- The last answer is in the buffer afterwards. -/
theorem readAssocLoop_last (B : Bcu) (addr : Word) (gapos : Nat) : ∀ (n p : Nat) (s : St),
    ((readAssocLoop B addr gapos n p s).2 = [] → (readAssocLoop B addr gapos n p s).1.buf = s.buf) ∧
    ∀ f ∈ (readAssocLoop B addr gapos n p s).2.getLast?, f = prepared (readAssocLoop B addr gapos n p s).1.buf
  | 0, p, s => by
    refine ⟨fun _ => rfl, ?_⟩
    intro f hf; simp [readAssocLoop] at hf
  | n + 1, p, s => by
    have ih := readAssocLoop_last B addr gapos n (p + 2)
    unfold readAssocLoop
    by_cases h1 : gapos ≠ (s.mem p).toNat
    · rw [if_pos h1]; exact ih s
    · rw [if_neg h1]
      simp only
      by_cases h2 : objectConfig B s.mem (s.mem (p + 1)).toNat &&& 0x0c#8 = 0x0c#8
      · rw [if_pos h2]
        simp only
        obtain ⟨i1, i2⟩ := ih (sendGroupWrite B s (s.mem (p + 1)).toNat addr true).1
        constructor
        · intro h
          simp [sendGroupWrite] at h
        · intro f hf
          rcases hq : (readAssocLoop B addr gapos n (p + 2) (sendGroupWrite B s (s.mem (p + 1)).toNat addr true).1).2 with _ | ⟨x, xs⟩
          · rw [hq, List.append_nil] at hf
            rw [i1 hq]
            simp [sendGroupWrite] at hf ⊢
            exact hf.symm
          · apply i2
            rw [hq] at hf ⊢
            rw [List.getLast?_append] at hf
            simpa using hf
      · rw [if_neg h2]; exact ih s

/-- One answer to a read request is what is handed to the link layer. -/
theorem receiveGroup_buf {B : Bcu} {s : St} {tel : Tel} {f : List Byte} (hs : serviceOf tel = .read)
    (h : (receiveGroup B s tel).2 = [f]) : f = prepared (receiveGroup B s tel).1.buf := by
  obtain ⟨a1, a2, a3⟩ := apci_service tel
  unfold receiveGroup at h ⊢
  simp only at h ⊢
  rw [if_neg (fun c => by rcases c with c | c; exact absurd (a1.mp c) (by simp [hs]); exact absurd (a2.mp c) (by simp [hs])),
    if_pos (a3.mpr hs)] at h ⊢
  rcases hi : indexOfAddr B s.mem (Bytes.makeWord (tel 3) (tel 4)) with _ | r
  · rw [hi] at h; simp at h
  · rw [hi] at h
    simp only at h ⊢
    apply (readAssocLoop_last B _ _ _ _ _).2
    rw [h]
    rfl

/-- **C91.** The application of a device calls `requestObjectRead(j)`; no other object has a pending transmission, and the
next call of the group-telegram sender sends. The request is transmitted successfully over a line that may lose frames and
acknowledgements. The other device, where exactly one readable object `o` belongs to the group address, processes the
telegram it has received and sends its answer, which is transmitted successfully in the other direction. When the asking
device processes the telegram that it has received, then `objectRead(i)` there returns what `objectRead(o)` returns on the
other device, for every object `i` of the same type on this group address that may be written, and `nextUpdatedObject` will
report it. All other objects of the asking device, and the object that was asked for, are unchanged.

The asking device may do anything between its request and the answer (`q` is its state when the answer arrives), and both
link layers may have any history before the request (`ea`, `eb`) and before the answer (`ea'`, `eb'`).

Partial: for types of at most 6 bits the value must fit (`C91_wide_value_lost`), and no telegram that a link layer received
before must pass for the new one (`C85_success_without_delivery`). -/
theorem C91_read_answered_partial {B B' : Bcu} {C C' : Config}
    -- the asking device
    (S : Separate B C) (s : St) (H : Configured B s.mem C) (j : Nat) (hj : j < C.objs.length)
    (honly : ∀ k < C.objs.length, k ≠ j → ¬ Pending s.mem C k)
    (s' : St) (frames : List (List Byte))
    (hsend : sendNextGroupTelegram B { s with mem := requestObjectRead B s.mem j } = (s', true, frames))
    -- the way there
    (ea eb : List Bus.Ev) (own : Word) (ms : List (Bus.Who × Bus.Ev))
    (hT : Transfer ea eb own (handedOver s').1 (handedOver s').2 ms)
    (hnew : NewMessage (lastDelivered (Bus.run Bus.boot eb).2)
      (repeated (frameOf (prepareTelegram own (handedOver s').1 (handedOver s').2))))
    (hok : Out.finished true ∈ Bus.of .a (transferLog ea eb own (handedOver s').1 (handedOver s').2 ms))
    -- the other device
    (S' : Separate B' C') (r : St) (H' : Configured B' r.mem C')
    (o : Nat) (ho : o < C'.objs.length) (hone : answering C' (sendAddr C j) = [o])
    (hbits : C'.objs[o].type < 6 → (objectRead B' r.mem o).toNat < 64)
    (r' : St) (hr' : r' = (receiveGroup B' r (receivedTel (eb ++ Bus.of .b ms))).1)
    -- the way back
    (ea' eb' : List Bus.Ev) (own' : Word) (ms' : List (Bus.Who × Bus.Ev))
    (hT' : Transfer eb' ea' own' (handedOver r').1 (handedOver r').2 ms')
    (hnew' : NewMessage (lastDelivered (Bus.run Bus.boot ea').2)
      (repeated (frameOf (prepareTelegram own' (handedOver r').1 (handedOver r').2))))
    (hok' : Out.finished true ∈ Bus.of .a (transferLog eb' ea' own' (handedOver r').1 (handedOver r').2 ms'))
    -- the asking device when the answer arrives
    (q : St) (Hq : Configured B q.mem C) :
    let m := (receiveGroup B q (receivedTel (ea' ++ Bus.of .b ms'))).1.mem
    (∀ i, (hi : i < C.objs.length) → Linked C (sendAddr C j) i → Writable C.objs[i] → C.objs[i].type = C'.objs[o].type →
      objectRead B m i = objectRead B' r.mem o ∧ i ∈ (pollAll B (C.objs.length + 1) m).2) ∧
    (∀ i, (hi : i < C.objs.length) → ¬ (Linked C (sendAddr C j) i ∧ Writable C.objs[i]) →
      value B m C.objs[i] = value B q.mem C.objs[i] ∧ flags m C i = flags q.mem C i) ∧
    (∀ a, ¬ inData B C a → m a = q.mem a) ∧
    objectRead B' r'.mem o = objectRead B' r.mem o := by
  -- the request
  obtain ⟨w1, _, w3, w4⟩ := C15_requests H j hj
  have Hs : Configured B (requestObjectRead B s.mem j) C := by
    apply H.frame
    intro a ha
    apply (C15_set_flags H j hj 7#8 (by decide)).2.2.2
    intro hc; exact ha (Or.inl (hc ▸ flagByte_inFlags hj))
  rcases C57_send_next S { s with mem := requestObjectRead B s.mem j } Hs (by omega) with
    hsent | ⟨_, hn⟩
  rotate_left
  · rw [hsend] at hn; simp at hn
  obtain ⟨j', hj', _, ⟨hp, _⟩, _, _, _, hso⟩ := hsent
  obtain rfl : j' = j := by
    by_cases e : j' = j
    · exact e
    · exfalso
      apply honly j' hj' e
      unfold Pending at hp ⊢
      simp only at hp
      rwa [(w3 j' e).1] at hp
  rw [hsend] at hso
  simp only at hso
  have hw : WantsRead (requestObjectRead B s.mem j') C j' := by
    unfold WantsRead
    rw [w1]
    decide
  obtain ⟨f, hff, hfb, hfr, _⟩ := hso.frame
  have hfr := hfr hw
  have hlen := read_size hfr hfb
  -- the way there
  have hc := link_carries hT hnew hok hlen hfb
  obtain ⟨d1, d2⟩ := read_decoded hfr hc
  -- the answer
  have A := C56_read_answered S' r H' _ _ d1 d2
  have hbits' : C'.objs[o].type < 6 → ((value B' r.mem C'.objs[o]).headD 0#8).toNat < 64 := by
    intro ht
    have h1 := hbits ht
    have hb1 : bytesOf C'.objs[o].type = 1 := type_small ht
    have hv1 : (value B' r.mem C'.objs[o]).length = 1 := by rw [value_length, hb1]
    rw [objectRead_spec H' o ho, number_head hv1, BitVec.toNat_ofNat] at h1
    have := ((value B' r.mem C'.objs[o]).headD 0#8).isLt
    omega
  rw [hone] at A
  have hbuf := fun f => receiveGroup_buf (B := B') (s := r) (f := f) d2
  rw [← hr'] at hbuf A
  generalize (receiveGroup B' r (receivedTel (eb ++ Bus.of .b ms))).2 = fs at A hbuf
  cases A with
  | cons ho' frame carries sync rest =>
    rename_i m1 f2 fs' tel2
    cases rest
    have hno : ¬ (Linked C' (sendAddr C j') o ∧ o ≠ o ∧ ∃ h : o < C'.objs.length, Writable C'.objs[o]) := fun c => c.2.1 rfl
    have hb2 := hbuf f2 rfl
    have hfb2 : f2 = (List.range f2.length).map r'.buf := by
      rw [hb2]; simp [prepared]
    have hlen2 := frame_size (value_length B' _ _) frame hfb2
    have hc2 := link_carries hT' hnew' hok' hlen2 hfb2
    obtain ⟨e1, e2, e3⟩ := body_decoded (Or.inr rfl) (value_length B' r.mem _) hbits' frame hc2
    obtain ⟨T, _⟩ := C55_receive_value S q Hq _ (sendAddr C j') e1 (Or.inr (by rw [e3, if_neg (by decide)]))
    have Hm := T.configured Hq
    refine ⟨?_, ?_, T.keepRest, ?_⟩
    · intro i hi hl hwr ht
      constructor
      · rw [objectRead_spec Hm i hi, objectRead_spec H' o ho, T.value i hi ⟨hl, hi, hwr⟩, ht, e2]
      · rw [(C17_enumerates Hm _ (by omega)).1, List.mem_filter]
        refine ⟨by simpa using hi, ?_⟩
        rw [decide_eq_true_eq]
        unfold Updated
        rw [T.flags i hi ⟨hl, hi, hwr⟩]
        have : ∀ x : Byte, (x ||| 8#8) &&& 8#8 ≠ 0#8 := by decide +kernel
        exact this _
    · intro i hi hn
      have hn' : ¬ (Linked C (sendAddr C j') i ∧ ∃ h : i < C.objs.length, Writable C.objs[i]) := fun c => hn ⟨c.1, c.2.2⟩
      exact ⟨T.keepValue i hi hn', T.keepFlags i hi hn'⟩
    · rw [objectRead_spec (sync.configured H') o ho, objectRead_spec H' o ho, sync.keepValue o ho hno]

/-! ## Demonstration: a display (BCU1) asks a lamp (mask 0701) -/

/-- The lamp is on. -/
def qLamp : St := ⟨objectSetValue MASK0701 demoM2 1 1#32, fun _ => 0, 0⟩

/-- The display asks. -/
def qAsks : St := { (⟨demoM, fun _ => 0xEE#8, 0⟩ : St) with mem := requestObjectRead BCU1 demoM 0 }

/-- The display after the call of the group-telegram sender. -/
def qSent : St := (sendNextGroupTelegram BCU1 qAsks).1

def qRequest : List Byte := [0xBC, 0x12, 0x03, 0x09, 0x01, 0xE1, 0x00, 0x00, 0xBB]
def qResponse : List Byte := [0xBC, 0x12, 0x04, 0x09, 0x01, 0xE1, 0x00, 0x41, 0xFD]

/-- `frame` is sent by the one, received by the other and acknowledged; `n` interrupts until the end of the transmission. -/
def qLink (frame : List Byte) (n : Nat) : List (Bus.Who × Bus.Ev) :=
  Bus.kA (.kick :: Bus.dSilence n) ++
  Bus.kB (frame.flatMap (fun b => Bus.dChar b (Bus.parityBit b)) ++ [eEnd] ++ Bus.dSilence 2) ++
  Bus.kA (Bus.dAck ++ [.irq Bus.dTimeout])

/-- The lamp after it has processed the request. -/
def qAnswered : St := (receiveGroup MASK0701 qLamp (receivedTel (Bus.dReady ++ Bus.of .b (qLink qRequest 77)))).1

/-- The histories of the link layers when the answer is sent: the display has waited for the end of its transmission, the lamp
has released the request. -/
def qDisplayBus : List Bus.Ev :=
  Bus.dReady ++ .queue 0x1203#16 (handedOver qSent).1 (handedOver qSent).2 :: Bus.of .a (qLink qRequest 77) ++ Bus.dSilence 12
@[inherit_doc qDisplayBus] def qLampBus : List Bus.Ev :=
  Bus.dReady ++ Bus.of .b (qLink qRequest 77) ++ Bus.dSilence 12 ++ [.discard]

example : frameOf (prepareTelegram 0x1203#16 (handedOver qSent).1 (handedOver qSent).2) = qRequest ∧
    frameOf (prepareTelegram 0x1204#16 (handedOver qAnswered).1 (handedOver qAnswered).2) = qResponse := by decide +kernel

theorem qRequest_transfer :
    Transfer Bus.dReady Bus.dReady 0x1203#16 (handedOver qSent).1 (handedOver qSent).2 (qLink qRequest 77) where
  sends := ⟨by decide +kernel, by decide +kernel, by decide +kernel⟩
  quiet := by decide +kernel
  line := by decide +kernel

theorem qResponse_transfer :
    Transfer qLampBus qDisplayBus 0x1204#16 (handedOver qAnswered).1 (handedOver qAnswered).2 (qLink qResponse 73) where
  sends := ⟨by decide +kernel, by decide +kernel, by decide +kernel⟩
  quiet := by decide +kernel
  line := by decide +kernel

theorem qLamp_configured : Configured MASK0701 qLamp.mem demoC2 := by
  apply demo2_configured.frame
  intro a ha
  obtain ⟨_, _, _, _, _, h⟩ := C16_setValue_read demo2_configured 1 (by decide) 1#32
  apply h a
  · intro hc; exact ha (Or.inr ⟨_, List.getElem_mem _, hc⟩)
  · intro hc; exact ha (Or.inl (hc ▸ flagByte_inFlags (by decide)))

example := C91_read_answered_partial demo_separate ⟨demoM, fun _ => 0xEE#8, 0⟩ demo_configured 0 (by decide)
  (by
    have : ∀ k < demoC.objs.length, k ≠ 0 → ¬ flags demoM demoC k &&& 3#8 = 3#8 := by decide +kernel
    exact this)
  qSent (sendNextGroupTelegram BCU1 qAsks).2.2
  (by
    have : (sendNextGroupTelegram BCU1 qAsks).2.1 = true := by decide +kernel
    show sendNextGroupTelegram BCU1 qAsks = _
    rw [qSent, ← this])
  Bus.dReady Bus.dReady 0x1203#16 (qLink qRequest 77) qRequest_transfer
  (Or.inr fun f hf => absurd hf (by
    rw [show lastDelivered (Bus.run Bus.boot Bus.dReady).2 = none by decide +kernel]; simp))
  (by decide +kernel)
  demo2_separate qLamp qLamp_configured 1 (by decide) (by decide +kernel) (fun _ => by decide +kernel) qAnswered rfl
  qDisplayBus qLampBus 0x1204#16 (qLink qResponse 73) qResponse_transfer
  (Or.inr fun f hf => absurd hf (by
    rw [show lastDelivered (Bus.run Bus.boot qDisplayBus).2 = none by decide +kernel]; simp))
  (by decide +kernel)
  qSent (C18_configuration_kept demo_separate qAsks (by
    apply demo_configured.frame
    intro a ha
    apply (C15_set_flags demo_configured 0 (by decide) 7#8 (by decide)).2.2.2
    intro hc; exact ha (Or.inl (hc ▸ flagByte_inFlags (by decide)))))

example : objectRead BCU1 qSent.mem 0 = 0#32 ∧ objectRead BCU1 (receiveGroup BCU1 qSent
    (receivedTel (qDisplayBus ++ Bus.of .b (qLink qResponse 73)))).1.mem 0 = 1#32 := by decide +kernel
example : Linked demoC (sendAddr demoC 0) 0 ∧ Writable demoC.objs[0] ∧ demoC.objs[0].type = demoC2.objs[1].type :=
  ⟨⟨1, by decide, by decide⟩, by unfold Writable; decide, by decide⟩

/-- **C91, negative.** A value that does not fit into the type is not what the asking device gets: the byte 0x40 in a 1-bit
object coincides with the service code of the answer, and the asking device takes 0. -/
theorem C91_wide_value_lost : ∃ (v : U32),
    let r : St := ⟨objectSetValue MASK0701 demoM2 1 v, fun _ => 0, 0⟩
    let f := (receiveGroup MASK0701 r (onWire qRequest 0x1203#16)).2.headD []
    let q : St := ⟨objectSetValue BCU1 demoM 0 1#32, fun _ => 0, 0⟩
    objectRead MASK0701 r.mem 1 = v ∧ answering demoC2 (sendAddr demoC 0) = [1] ∧
    (receiveGroup MASK0701 r (onWire qRequest 0x1203#16)).2 = [f] ∧
    objectRead BCU1 q.mem 0 = 1#32 ∧ objectRead BCU1 (receiveGroup BCU1 q (onWire f 0x1204#16)).1.mem 0 = 0#32 ∧
    v ≠ 0#32 := by
  refine ⟨0x40#32, ?_⟩
  refine ⟨by decide +kernel, by decide +kernel, by decide +kernel, by decide +kernel, by decide +kernel, by decide⟩

end Verif.Com
