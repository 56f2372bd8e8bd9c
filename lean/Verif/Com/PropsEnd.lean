import Verif.Com.PropsGroup
import Verif.Com.PropsObj
import Verif.Bus.PropsLink

/-!
# C86: from the application of one device to the application of another

`objectWrite` on one device, the group-telegram sender, the link layers of both devices over a lossy line, the
group-telegram receiver and `objectRead` on the other device.
-/

namespace Verif.Com

open Verif.Bus (Transfer transferLog delivered NewMessage repeated frameOf prepareTelegram lastDelivered at' Out)

/-- What the link layer of a device holds as the received telegram after the events `es`. -/
def receivedTel (es : List Bus.Ev) : Tel := (Bus.run Bus.boot es).1.bus.telegram

/-- `sendPreparedTelegram`, knx_tlayer4.cpp:580-584: the buffer and its length for the link layer. -/
def handedOver (s : St) : Tel × Nat := (s.buf, telegramSize s.buf)

/-- The frame that the link layer sends, from the destination address on. -/
theorem frame_at (own : Word) (t : Tel) (k : Nat) (h3 : 3 ≤ k) (hk : k < telegramSize t) :
    at' (frameOf (prepareTelegram own t (telegramSize t))) k = t k ∧
    (frameOf (prepareTelegram own t (telegramSize t))).length = telegramSize t + 1 := by
  have h7 : 7 ≤ telegramSize t := by unfold telegramSize; omega
  have h5 : prepareTelegram own t (telegramSize t) 5 = t 5 := by
    simp only [prepareTelegram, Knx.setSenderAddress, Knx.upd]
    rw [if_neg (by omega), if_neg (by omega), if_neg (by omega)]
  have hs : Knx.telegramSize (prepareTelegram own t (telegramSize t)) = telegramSize t := by
    simp only [Knx.telegramSize, h5]; rfl
  have hat : at' (frameOf (prepareTelegram own t (telegramSize t))) k =
      prepareTelegram own t (telegramSize t) k := by
    unfold frameOf
    rw [hs]
    exact Bus.at'_bytes _ _ _ (by omega)
  refine ⟨?_, by rw [frameOf, Bus.bytes_length, hs]⟩
  rw [hat]
  simp only [prepareTelegram, Knx.setSenderAddress, Knx.upd]
  rw [if_neg (by omega), if_neg (by omega), if_neg (by omega)]

theorem size_of_e0 : ∀ n : Fin 16, ((0xe0#8 ||| BitVec.ofNat 8 n.val) &&& 15#8).toNat = n.val := by decide

/-- A value telegram in the buffer has the length that the buffer says. -/
theorem frame_size {t : Tel} {f : List Byte} {g : Word} {o : Obj} {v : List Byte} {cmd : Byte} (hv : v.length = bytesOf o.type)
    (hf : IsFrame f (valueBody g o v cmd)) (hb : f = (List.range f.length).map t) : f.length = telegramSize t := by
  have hc : Carries t f := by
    intro k _ hk
    have : f[k]? = some (t k) := by
      rw [hb, List.getElem?_map, List.getElem?_range (by simpa using hk)]; rfl
    exact (Option.some.inj ((List.getElem?_eq_getElem hk).symm.trans this)).symm
  have hx := carries_body hf hc
  rw [hf.2.1]
  unfold telegramSize
  by_cases ht : o.type < 6
  · have e : valueBody g o v cmd = [BitVec.ofNat 8 (g.toNat / 256), BitVec.ofNat 8 g.toNat, 0xe1#8, 0#8, cmd ||| v.headD 0#8] := by
      unfold valueBody be16; rw [if_pos ht]; rfl
    rw [e] at hx ⊢
    rw [show t 5 = 0xe1#8 from hx 2 (by simp)]
    rfl
  · have e : valueBody g o v cmd = [BitVec.ofNat 8 (g.toNat / 256), BitVec.ofNat 8 g.toNat, 0xe0#8 ||| b8 (bytesOf o.type + 1),
        0#8, cmd] ++ v.reverse := by
      unfold valueBody be16; rw [if_neg ht]; rfl
    rw [e] at hx ⊢
    have h5 : t 5 = 0xe0#8 ||| b8 (bytesOf o.type + 1) := hx 2 (by simp)
    have hl := bytesOf_le o.type
    have := size_of_e0 ⟨bytesOf o.type + 1, by omega⟩
    rw [h5]
    unfold b8
    rw [this, List.length_append, List.length_reverse, hv]
    simp
    omega

/-- The delivered telegram carries what was handed to the link layer. -/
theorem carries_delivered {own : Word} {t : Tel} {f g : List Byte} {tel : Tel} (hlen : f.length = telegramSize t)
    (hb : f = (List.range f.length).map t)
    (hg : g = frameOf (prepareTelegram own t (telegramSize t)) ∨
      g = repeated (frameOf (prepareTelegram own t (telegramSize t))))
    (htel : ∀ k < g.length, tel k = at' g k) : Carries tel f := by
  intro k h3 hk
  have hfk : f[k]? = some (t k) := by
    rw [hb, List.getElem?_map, List.getElem?_range (by simpa using hk)]; rfl
  rw [Option.some.inj ((List.getElem?_eq_getElem hk).symm.trans hfk)]
  obtain ⟨h1, h2⟩ := frame_at own t k h3 (by omega)
  have hgl : g.length = telegramSize t + 1 := by
    rcases hg with rfl | rfl
    · exact h2
    · rw [Bus.repeated_length, h2]
  rw [htel k (by omega)]
  rcases hg with rfl | rfl
  · exact h1
  · rw [(Bus.repetition_of _ (by omega)).2.2 k (by omega) (by omega), h1]

theorem number_head {v : List Byte} (h : v.length = 1) : number v = (v.headD 0#8).toNat := by
  match v, h with
  | [x], _ => simp [number]

/-- **C86.** The application of one device calls `objectWrite(j, v)`; no other object has a pending transmission, and the next
call of the group-telegram sender sends. The telegram is transmitted over a line that may lose frames and acknowledgements, and
the sending device is told success. Then, when the other device processes the telegram it has received, `objectRead(i)` there
returns `v` (reduced to the size of the object) for every object `i` of the same type that is associated with the group address
and may be written, `nextUpdatedObject` will report it, and all other objects and the rest of the memory are unchanged.

Partial: for types of at most 6 bits the value must fit (`C19_wide_bits_corrupt`), and the receiver's last telegram must not pass
for this one (`C85_success_without_delivery`). -/
theorem C86_write_arrives_partial {B B' : Bcu} {C C' : Config}
    -- the sending device
    (S : Separate B C) (s : St) (H : Configured B s.mem C) (j : Nat) (hj : j < C.objs.length) (v : U32)
    (hv : C.objs[j].type < 6 → v.toNat % 256 < 64)
    (honly : ∀ k < C.objs.length, k ≠ j → ¬ Pending s.mem C k)
    (s' : St) (frames : List (List Byte))
    (hsend : sendNextGroupTelegram B { s with mem := objectWrite B s.mem j v } = (s', true, frames))
    -- the two link layers and the line
    (ea eb : List Bus.Ev) (own : Word) (ms : List (Bus.Who × Bus.Ev))
    (hT : Transfer ea eb own (handedOver s').1 (handedOver s').2 ms)
    (hnew : NewMessage (lastDelivered (Bus.run Bus.boot eb).2)
      (repeated (frameOf (prepareTelegram own (handedOver s').1 (handedOver s').2))))
    (hok : Out.finished true ∈ Bus.of .a (transferLog ea eb own (handedOver s').1 (handedOver s').2 ms))
    -- the receiving device
    (S' : Separate B' C') (r : St) (H' : Configured B' r.mem C') :
    let m := (receiveGroup B' r (receivedTel (eb ++ Bus.of .b ms))).1.mem
    (∀ i, (hi : i < C'.objs.length) → Linked C' (sendAddr C j) i → Writable C'.objs[i] →
      C'.objs[i].type = C.objs[j].type →
      (objectRead B' m i).toNat = v.toNat % 256 ^ bytesOf C.objs[j].type ∧
      i ∈ (pollAll B' (C'.objs.length + 1) m).2) ∧
    (∀ i, (hi : i < C'.objs.length) → ¬ (Linked C' (sendAddr C j) i ∧ Writable C'.objs[i]) →
      value B' m C'.objs[i] = value B' r.mem C'.objs[i] ∧ flags m C' i = flags r.mem C' i) ∧
    (∀ a, ¬ inData B' C' a → m a = r.mem a) := by
  -- the sender
  obtain ⟨w1, w2, _, w4, w5, w6⟩ := C16_write_read H j hj v
  have Hs : Configured B (objectWrite B s.mem j v) C := by
    apply H.frame
    intro a ha
    apply w6 a
    · intro hc; exact ha (Or.inr ⟨_, List.getElem_mem hj, hc⟩)
    · intro hc; exact ha (Or.inl (hc ▸ flagByte_inFlags hj))
  rcases C57_send_next S { s with mem := objectWrite B s.mem j v } Hs (by omega) with
    hsent | ⟨_, hn⟩
  rotate_left
  · rw [hsend] at hn; simp at hn
  obtain ⟨j', hj', _, ⟨hp, _⟩, _, _, _, hso⟩ := hsent
  obtain rfl : j' = j := by
    by_cases e : j' = j
    · exact e
    · exfalso
      apply honly j' hj' e
      unfold Pending at hp ⊢
      simp only at hp
      rwa [w5 j' hj' e] at hp
  rw [hsend] at hso
  simp only at hso
  have hw : ¬ WantsRead (objectWrite B s.mem j' v) C j' := by
    unfold WantsRead
    rw [w4]
    decide
  obtain ⟨f, hff, hfb, _, hfr⟩ := hso.frame
  have hfr := hfr hw
  have hlen := frame_size (value_length B _ _) hfr hfb
  rw [hff] at hso
  have hbits : C.objs[j'].type < 6 → ((value B (objectWrite B s.mem j' v) C.objs[j']).headD 0#8).toNat < 64 := by
    intro ht
    have hb1 : bytesOf C.objs[j'].type = 1 := type_small ht
    rw [← number_head (by rw [value_length, hb1]), w2, hb1]
    exact hv ht
  -- the link
  obtain ⟨g, hg, hdel⟩ : ∃ g, (g = frameOf (prepareTelegram own s'.buf (telegramSize s'.buf)) ∨
      g = repeated (frameOf (prepareTelegram own s'.buf (telegramSize s'.buf)))) ∧
      delivered (Bus.of .b (transferLog ea eb own s'.buf (telegramSize s'.buf) ms)) = [g] := by
    rcases Bus.C85_success_means_delivered_partial ea eb own _ _ ms hT hnew hok with h | h
    · exact ⟨_, Or.inl rfl, h⟩
    · exact ⟨_, Or.inr rfl, h⟩
  have hlast : lastDelivered (Bus.run Bus.boot (eb ++ Bus.of .b ms)).2 = some g := by
    have := (Bus.netRun_b_boot ea eb own s'.buf (telegramSize s'.buf) ms).2
    rw [this, Bus.lastDelivered_of_delivered]
    have hd : delivered (Bus.of .b (Bus.netRun (Bus.net0 ea eb own s'.buf (telegramSize s'.buf)) ms).2) = [g] := hdel
    rw [hd]
    rfl
  have htel : ∀ k < g.length, receivedTel (eb ++ Bus.of .b ms) k = at' g k := by
    intro k hk
    have h1 := Bus.boot_tel (eb ++ Bus.of .b ms) g hlast
    have h2 := Bus.at'_bytes (receivedTel (eb ++ Bus.of .b ms)) g.length k hk
    unfold receivedTel at h2 ⊢
    rw [h1] at h2
    exact h2.symm
  have hc := carries_delivered hlen hfb hg htel
  -- the receiver
  obtain ⟨d1, d2, d3⟩ := C19_device_to_device hso hw hbits S' H' _ hc
  have Hm : Configured B' (receiveGroup B' r (receivedTel (eb ++ Bus.of .b ms))).1.mem C' := H'.frame d3
  refine ⟨?_, d2, d3⟩
  intro i hi hl hwr ht
  obtain ⟨e1, e2⟩ := d1 i hi hl hwr ht
  constructor
  · rw [objectRead_spec Hm i hi, e1]
    simp only
    rw [w2, BitVec.toNat_ofNat, Nat.mod_eq_of_lt]
    exact Nat.lt_of_le_of_lt (Nat.mod_le _ _) v.isLt
  · rw [(C17_enumerates Hm _ (by omega)).1, List.mem_filter]
    refine ⟨by simpa using hi, ?_⟩
    rw [decide_eq_true_eq]
    unfold Updated
    rw [e2]
    have : ∀ x : Byte, (x ||| 8#8) &&& 8#8 ≠ 0#8 := by decide +kernel
    exact this _

/-! ## Demonstration: a switch (BCU1) and a lamp (mask 0701) -/

/-- The switch is pressed. -/
def eSwitch : St := { (⟨demoM, fun _ => 0xEE#8, 0⟩ : St) with mem := objectWrite BCU1 demoM 0 1#32 }

/-- The switch after the call of the group-telegram sender. -/
def eSent : St := (sendNextGroupTelegram BCU1 eSwitch).1

def eFrame : List Byte := [0xBC, 0x12, 0x03, 0x09, 0x01, 0xE1, 0x00, 0x81, 0x3A]

/-- The end of a frame at a device that knows the group address 1/1/1. -/
def eEnd : Bus.Ev := .irq { Bus.dTimeout with known := fun a => a == 0x0901#16, own := 0x1204#16 }

/-- The telegram is sent, received and acknowledged. -/
def eLink : List (Bus.Who × Bus.Ev) :=
  Bus.kA (.kick :: Bus.dSilence 77) ++
  Bus.kB (eFrame.flatMap (fun b => Bus.dChar b (Bus.parityBit b)) ++ [eEnd] ++ Bus.dSilence 2) ++
  Bus.kA (Bus.dAck ++ [.irq Bus.dTimeout])

example : frameOf (prepareTelegram 0x1203#16 (handedOver eSent).1 (handedOver eSent).2) = eFrame := by decide +kernel

theorem eLink_transfer : Transfer Bus.dReady Bus.dReady 0x1203#16 (handedOver eSent).1 (handedOver eSent).2 eLink where
  sends := ⟨by decide +kernel, by decide +kernel, by decide +kernel⟩
  quiet := by decide +kernel
  line := by decide +kernel

example := C86_write_arrives_partial demo_separate ⟨demoM, fun _ => 0xEE#8, 0⟩ demo_configured 0 (by decide) 1#32
  (fun _ => by decide) (by
    have : ∀ k < demoC.objs.length, k ≠ 0 → ¬ flags demoM demoC k &&& 3#8 = 3#8 := by decide +kernel
    exact this)
  eSent (sendNextGroupTelegram BCU1 eSwitch).2.2
  (by
    have : (sendNextGroupTelegram BCU1 eSwitch).2.1 = true := by decide +kernel
    show sendNextGroupTelegram BCU1 eSwitch = _
    rw [eSent, ← this])
  Bus.dReady Bus.dReady 0x1203#16 eLink eLink_transfer
  (Or.inr fun f hf => absurd hf (by
    rw [show lastDelivered (Bus.run Bus.boot Bus.dReady).2 = none by decide +kernel]; simp))
  (by decide +kernel)
  demo2_separate ⟨demoM2, fun _ => 0, 0⟩ demo2_configured

example : Linked demoC2 (sendAddr demoC 0) 1 ∧ Writable demoC2.objs[1] ∧ demoC2.objs[1].type = demoC.objs[0].type :=
  ⟨⟨2, by decide, by decide⟩, by unfold Writable; decide, by decide⟩

example : objectRead MASK0701 (receiveGroup MASK0701 ⟨demoM2, fun _ => 0, 0⟩
    (receivedTel (Bus.dReady ++ Bus.of .b eLink))).1.mem 1 = 1#32 := by decide +kernel

end Verif.Com
