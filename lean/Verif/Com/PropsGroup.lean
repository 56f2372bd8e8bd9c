import Verif.Com.SendLemmas
import Verif.Com.Demo

/-!
# Properties of group telegrams

C18, C19, C20, C55, C56, C57.
-/

namespace Verif.Com

open Verif.Bytes (makeWord)

/-! ## C18: no starvation -/

theorem or8_and3 (b : Byte) : (b ||| 8#8) &&& 3#8 = b &&& 3#8 := by revert b; decide +kernel

theorem sends_keeps_pending {B : Bcu} {C : Config} {s s' : St} {j : Nat} {hj : j < C.objs.length} {fr : List (List Byte)}
    (h : SendsObject B C s s' j hj fr) {o : Nat} (ho : o < C.objs.length) (hne : o ≠ j) (hp : Pending s.mem C o) :
    Pending s'.mem C o := by
  unfold Pending at *
  by_cases hc : ¬ WantsRead s.mem C j ∧ Linked C (sendAddr C j) o ∧ Writable C.objs[o]
  · rw [(h.takesValue o ho hne hc.1 hc.2.1 hc.2.2).2, or8_and3]; exact hp
  · rw [(h.keeps o ho hne hc).2]; exact hp

theorem sends_configured {B : Bcu} {C : Config} {s s' : St} {j : Nat} {hj : j < C.objs.length} {fr : List (List Byte)}
    (H : Configured B s.mem C) (h : SendsObject B C s s' j hj fr) : Configured B s'.mem C := H.frame h.keepRest

/-- Calls until object `o` is reached from scan position `next`. -/
def dist (n o next : Nat) : Nat := if next % n ≤ o then o - next % n else n - next % n + o

/-- **C18.** Let an object that can send have a pending request, and let the sender be called again and again. Between the
calls the application and received telegrams may change the memory arbitrarily - in particular request other objects
again all the time - as long as the configuration stays and the request of the object is not withdrawn. Then one of the
first `n` calls sends the object, `n` being the number of objects. -/
theorem C18_no_starvation {B : Bcu} {C : Config} (S : Separate B C) (s : Nat → St) (o : Nat) (ho : CanSend C o)
    (hcfg : ∀ k, Configured B (s k).mem C)
    (hnext : ∀ k, (s (k + 1)).next = (sendNextGroupTelegram B (s k)).1.next)
    (hreq : Pending (s 0).mem C o)
    (hkeep : ∀ k, Pending (sendNextGroupTelegram B (s k)).1.mem C o → Pending (s (k + 1)).mem C o) :
    ∃ k < C.objs.length, ∃ hj : o < C.objs.length, (sendNextGroupTelegram B (s k)).2.1 = true ∧
      SendsObject B C (s k) (sendNextGroupTelegram B (s k)).1 o hj (sendNextGroupTelegram B (s k)).2.2 := by
  obtain ⟨⟨hol, _⟩, _⟩ := id ho
  obtain ⟨n, hn⟩ : ∃ n, C.objs.length = n := ⟨_, rfl⟩
  have hpos : 0 < n := by omega
  have key : ∀ k, (∃ k' < k, ∃ hj : o < C.objs.length, (sendNextGroupTelegram B (s k')).2.1 = true ∧
      SendsObject B C (s k') (sendNextGroupTelegram B (s k')).1 o hj (sendNextGroupTelegram B (s k')).2.2) ∨
      (Pending (s k).mem C o ∧ dist n o (s k).next + k < n) := by
    intro k
    induction k with
    | zero =>
      refine Or.inr ⟨hreq, ?_⟩
      have := Nat.mod_lt (s 0).next hpos
      unfold dist
      split <;> omega
    | succ k ih =>
      rcases ih with ⟨k', hk', h⟩ | ⟨hp, hd⟩
      · exact Or.inl ⟨k', by omega, h⟩
      · have hlt := Nat.mod_lt (s k).next hpos
        have hstep := sendNext_spec S (s k) (hcfg k) (by omega)
        rcases hstep with ⟨j, hj, h1, h2, h3, h4, h5, h6⟩ | ⟨h1, h2⟩
        · rw [hn] at h1 h3
          by_cases e : j = o
          · subst e
            exact Or.inl ⟨k, by omega, hj, h4, h6⟩
          · refine Or.inr ⟨hkeep k (sends_keeps_pending h6 hol (fun c => e c.symm) hp), ?_⟩
            rw [hnext, h5]
            have hjo : (s k).next % n ≤ o → j < o := by
              intro hle
              apply Nat.lt_of_not_le
              intro hc
              exact h3 o hle (by omega) ⟨hp, ho⟩
            unfold dist at hd ⊢
            by_cases hjn : j + 1 = n
            · rw [hjn, Nat.mod_self]
              rw [if_pos (Nat.zero_le _)]
              split at hd <;> omega
            · rw [Nat.mod_eq_of_lt (by omega : j + 1 < n)]
              split at hd <;> split <;> omega
        · rw [hn] at h1 h2
          have hgt : o < (s k).next % n := by
            apply Nat.lt_of_not_le
            intro hc
            exact h1 o hc (by omega) ⟨hp, ho⟩
          refine Or.inr ⟨hkeep k (by rw [h2]; exact hp), ?_⟩
          rw [hnext, h2]
          simp only
          unfold dist at hd ⊢
          rw [if_neg (by omega)] at hd
          by_cases hjn : (s k).next % n + 1 = n
          · rw [hjn, Nat.mod_self, if_pos (Nat.zero_le _)]
            omega
          · rw [Nat.mod_eq_of_lt (by omega : (s k).next % n + 1 < n)]
            rw [if_neg (by omega)]
            omega
  rcases key n with ⟨k, hk, h⟩ | ⟨_, h⟩
  · exact ⟨k, by omega, h⟩
  · omega

/-- **C18.** The configuration survives every call, so the hypothesis `hcfg` is maintained by the device itself. -/
theorem C18_configuration_kept {B : Bcu} {C : Config} (S : Separate B C) (s : St) (H : Configured B s.mem C) :
    Configured B (sendNextGroupTelegram B s).1.mem C := by
  by_cases h0 : 0 < C.objs.length
  · rcases sendNext_spec S s H h0 with ⟨j, hj, _, _, _, _, _, h6⟩ | ⟨_, h⟩
    · exact sends_configured H h6
    · rw [h]; exact H
  · unfold sendNextGroupTelegram
    rw [flagsTable_eq H, objectCount_eq H]
    simp only
    rw [if_pos (by omega)]
    exact H

-- object 1 is pending; object 0 is requested again before every call
example : CanSend demoC 1 := ⟨⟨by decide, by decide, by decide⟩, by decide⟩
example : Pending (requestObjectRead BCU1 demoM 1) demoC 1 := by unfold Pending; decide +kernel
example :
    let s0 : St := ⟨objectWrite BCU1 (objectWrite BCU1 demoM 1 500#32) 0 1#32, fun _ => 0, 0⟩
    let r0 := sendNextGroupTelegram BCU1 s0
    let s1 : St := { r0.1 with mem := objectWrite BCU1 r0.1.mem 0 0#32 }
    let r1 := sendNextGroupTelegram BCU1 s1
    r0.2.2 = [[0xBC#8, 0, 0, 0x09#8, 0x01#8, 0xe1#8, 0, 0x81#8]] ∧
    r1.2.2 = [[0xBC#8, 0, 0, 0x0A#8, 0x02#8, 0xe3#8, 0, 0x80#8, 0x01#8, 0xF4#8]] := by decide +kernel

/-! ## C57: what the sender does -/

/-- **C57.** One call of the group-telegram sender: it sends the first object from the scan position on that is pending
and can send, exactly one telegram, whose bytes are the value of the object at its group address (or a read request);
the request is cleared, the other writable objects on this address take the value and are marked updated, everything
else is unchanged. If there is none it sends nothing and changes nothing but the scan position. -/
theorem C57_send_next {B : Bcu} {C : Config} (S : Separate B C) (s : St) (H : Configured B s.mem C) (h0 : 0 < C.objs.length) :
    (∃ j, ∃ hj : j < C.objs.length, s.next % C.objs.length ≤ j ∧ (Pending s.mem C j ∧ CanSend C j) ∧
      (∀ k, s.next % C.objs.length ≤ k → k < j → ¬ (Pending s.mem C k ∧ CanSend C k)) ∧
      (sendNextGroupTelegram B s).2.1 = true ∧ (sendNextGroupTelegram B s).1.next = j + 1 ∧
      SendsObject B C s (sendNextGroupTelegram B s).1 j hj (sendNextGroupTelegram B s).2.2) ∨
    ((∀ k, s.next % C.objs.length ≤ k → k < C.objs.length → ¬ (Pending s.mem C k ∧ CanSend C k)) ∧
      sendNextGroupTelegram B s = ({ s with next := s.next % C.objs.length + 1 }, false, [])) :=
  sendNext_spec S s H h0

theorem payload_ext {t : Nat} {tel tel' : Tel} (h7 : t < 6 → tel 7 = tel' 7)
    (h8 : ¬ t < 6 → ∀ k < bytesOf t, tel (8 + k) = tel' (8 + k)) : payload t tel = payload t tel' := by
  unfold payload
  by_cases h : t < 6
  · rw [if_pos h, if_pos h, h7 h]
  · rw [if_neg h, if_neg h]
    congr 1
    apply List.map_congr_left
    intro k hk
    rw [List.mem_range] at hk
    exact h8 h k hk

/-- A telegram that carries the frame: the same bytes from the destination address on (the sender address is filled in
by the bus layer, and what follows the frame is arbitrary). -/
def Carries (tel : Tel) (f : List Byte) : Prop := ∀ k, 3 ≤ k → (h : k < f.length) → tel k = f[k]

theorem carries_body {tel : Tel} {f body : List Byte} (hf : IsFrame f body) (hc : Carries tel f) (k : Nat) (hk : k < body.length) :
    tel (3 + k) = body[k] := by
  obtain ⟨_, hl, hd⟩ := hf
  rw [hc (3 + k) (by omega) (by omega)]
  subst hd
  simp

theorem bits_or : ∀ v : BitVec 8, v.toNat < 64 → (0x80#8 ||| v) &&& 0x3f#8 = v ∧ (0x40#8 ||| v) &&& 0x3f#8 = v ∧
    (0x80#8 ||| v).toNat / 64 = 2 ∧ (0x40#8 ||| v).toNat / 64 = 1 := by decide +kernel

/-- What a receiver finds in a value telegram. -/
theorem body_decoded {tel : Tel} {f : List Byte} {g : Word} {o : Obj} {v : List Byte} {cmd : Byte}
    (hcmd : cmd = 0x80#8 ∨ cmd = 0x40#8) (hlen : v.length = bytesOf o.type) (hbits : o.type < 6 → (v.headD 0#8).toNat < 64)
    (hf : IsFrame f (valueBody g o v cmd)) (hc : Carries tel f) :
    destOf tel = g.toNat ∧ payload o.type tel = v ∧ serviceOf tel = if cmd = 0x80#8 then .write else .response := by
  have hb := carries_body hf hc
  have hg := g.isLt
  have h3 : tel 3 = BitVec.ofNat 8 (g.toNat / 256) := hb 0 (by simp [valueBody, be16])
  have h4 : tel 4 = BitVec.ofNat 8 g.toNat := hb 1 (by simp [valueBody, be16])
  have hdest : destOf tel = g.toNat := by
    unfold destOf
    rw [h3, h4, BitVec.toNat_ofNat, BitVec.toNat_ofNat]
    omega
  by_cases ht : o.type < 6
  · have e : valueBody g o v cmd = [BitVec.ofNat 8 (g.toNat / 256), BitVec.ofNat 8 g.toNat, 0xe1#8, 0#8, cmd ||| v.headD 0#8] := by
      unfold valueBody be16; rw [if_pos ht]; rfl
    rw [e] at hb
    have h6 : tel 6 = 0#8 := hb 3 (by simp)
    have h7 : tel 7 = cmd ||| v.headD 0#8 := hb 4 (by simp)
    rw [type_small ht] at hlen
    obtain ⟨x, rfl⟩ : ∃ x, v = [x] := by
      match v, hlen with
      | [x], _ => exact ⟨x, rfl⟩
    have hx := bits_or x (hbits ht)
    simp only [List.headD_cons] at h7
    unfold payload serviceOf
    rw [if_pos ht, h6, h7]
    refine ⟨hdest, ?_, ?_⟩
    · rcases hcmd with rfl | rfl
      · rw [hx.1]
      · rw [hx.2.1]
    · rcases hcmd with rfl | rfl
      · simp only [hx.2.2.1]; decide
      · simp only [hx.2.2.2]; decide
  · have e : valueBody g o v cmd = [BitVec.ofNat 8 (g.toNat / 256), BitVec.ofNat 8 g.toNat, 0xe0#8 ||| b8 (bytesOf o.type + 1),
        0#8, cmd] ++ v.reverse := by
      unfold valueBody be16; rw [if_neg ht]; rfl
    rw [e] at hb
    have h6 : tel 6 = 0#8 := hb 3 (by simp)
    have h7 : tel 7 = cmd := hb 4 (by simp)
    refine ⟨hdest, ?_, ?_⟩
    · unfold payload
      rw [if_neg ht]
      have : (List.range (bytesOf o.type)).map (fun k => tel (8 + k)) = v.reverse := by
        apply List.ext_getElem
        · simp [hlen]
        · intro k h1 h2
          simp only [List.length_map, List.length_range] at h1
          have := hb (5 + k) (by simp; omega)
          simp only [List.getElem_map, List.getElem_range]
          rw [show 8 + k = 3 + (5 + k) by omega, this, List.getElem_append_right (by simp)]
          simp
      rw [this, List.reverse_reverse]
    · unfold serviceOf
      rw [h6, h7]
      rcases hcmd with rfl | rfl <;> decide

theorem value_length (B : Bcu) (m : Mem) (o : Obj) : (value B m o).length = bytesOf o.type := by simp [value]

/-- **C57.** Local synchronisation: when an object sends its value, every other writable object of the same type on the
same group address holds the same value afterwards and is marked updated. (Types below 6 have at most 6 bits; the value
of the sender must fit, see `C19_wide_bits_corrupt`.) -/
theorem C57_local_sync {B : Bcu} {C : Config} {s s' : St} {j : Nat} {hj : j < C.objs.length} {frames : List (List Byte)}
    (h : SendsObject B C s s' j hj frames) (hw : ¬ WantsRead s.mem C j)
    (hbits : C.objs[j].type < 6 → ((value B s.mem C.objs[j]).headD 0#8).toNat < 64)
    (i : Nat) (hi : i < C.objs.length) (hij : i ≠ j) (hl : Linked C (sendAddr C j) i) (hwr : Writable C.objs[i])
    (ht : C.objs[i].type = C.objs[j].type) :
    value B s'.mem C.objs[i] = value B s.mem C.objs[j] ∧ flags s'.mem C i = flags s.mem C i ||| 8#8 := by
  obtain ⟨f, _, hfb, _, hfr⟩ := h.frame
  obtain ⟨v1, v2⟩ := h.takesValue i hi hij hw hl hwr
  refine ⟨?_, v2⟩
  rw [v1, ht]
  have hc : Carries s'.buf f := by
    intro k _ hk
    have : f[k]? = some (s'.buf k) := by
      rw [hfb, List.getElem?_map, List.getElem?_range (by simpa using hk)]; rfl
    exact (Option.some.inj ((List.getElem?_eq_getElem hk).symm.trans this)).symm
  exact (body_decoded (Or.inl rfl) (value_length B s.mem _) hbits (hfr hw) hc).2.1

-- objects 0 and 3 share a group address
example :
    let s0 : St := ⟨objectWrite BCU1 demoM 0 1#32, fun _ => 0xEE#8, 0⟩
    objectRead BCU1 (sendNextGroupTelegram BCU1 s0).1.mem 3 = 1#32 ∧
    flags (sendNextGroupTelegram BCU1 s0).1.mem demoC 3 = 8#8 ∧
    flags (sendNextGroupTelegram BCU1 s0).1.mem demoC 0 = 1#8 := by decide +kernel
example : Linked demoC (sendAddr demoC 0) 3 ∧ Writable demoC.objs[3] := ⟨⟨1, by decide, by decide⟩, by unfold Writable; decide⟩

/-! ## C55: reception -/

theorem apci_service (tel : Tel) :
    let apci := ((tel 6 &&& 3#8).setWidth 16 <<< 8 ||| (tel 7).setWidth 16) &&& 0x3c0#16
    (apci = 0x080#16 ↔ serviceOf tel = .write) ∧ (apci = 0x040#16 ↔ serviceOf tel = .response) ∧
    (apci = 0x000#16 ↔ serviceOf tel = .read) := by
  have h2 : ∀ a : BitVec 8, (a &&& 3#8).setWidth 16 = (a.setWidth 2).setWidth 16 ∧ a.toNat % 4 = (a.setWidth 2).toNat := by
    decide +kernel
  have key : ∀ (a : BitVec 2) (b : BitVec 8),
      let apci := (a.setWidth 16 <<< 8 ||| b.setWidth 16) &&& 0x3c0#16
      let svc := if a.toNat = 0 ∧ b.toNat / 64 = 0 then Service.read else if a.toNat = 0 ∧ b.toNat / 64 = 1 then .response
        else if a.toNat = 0 ∧ b.toNat / 64 = 2 then .write else .other
      (apci = 0x080#16 ↔ svc = .write) ∧ (apci = 0x040#16 ↔ svc = .response) ∧ (apci = 0x000#16 ↔ svc = .read) := by
    decide +kernel
  intro apci
  have := key ((tel 6).setWidth 2) (tel 7)
  unfold serviceOf
  simp only [(h2 (tel 6)).2]
  simp only [apci, (h2 (tel 6)).1]
  exact this

/-- **C55.** Receiving a group write or response: exactly the writable objects associated with the destination address
take the value that the telegram carries for their type and are marked updated; no other object, flag or byte of the
memory changes, and nothing is sent. -/
theorem C55_receive_value {B : Bcu} {C : Config} (S : Separate B C) (s : St) (H : Configured B s.mem C) (tel : Tel) (g : Word)
    (hg : destOf tel = g.toNat) (hs : serviceOf tel = .write ∨ serviceOf tel = .response) :
    Takes B C (fun i => Linked C g i ∧ ∃ h : i < C.objs.length, Writable C.objs[i]) tel s.mem (receiveGroup B s tel).1.mem ∧
    (receiveGroup B s tel).2 = [] ∧ (receiveGroup B s tel).1.buf = s.buf ∧ (receiveGroup B s tel).1.next = s.next := by
  have hw : makeWord (tel 3) (tel 4) = g := by
    apply BitVec.eq_of_toNat_eq
    rw [← hg]
    have := makeWord_be (destOf tel) (by have := (tel 3).isLt; have := (tel 4).isLt; unfold destOf; omega)
    have e1 : BitVec.ofNat 8 (destOf tel / 256) = tel 3 := by
      apply BitVec.eq_of_toNat_eq
      have h3 := (tel 3).isLt; have h4 := (tel 4).isLt
      rw [BitVec.toNat_ofNat]; unfold destOf; omega
    have e2 : BitVec.ofNat 8 (destOf tel) = tel 4 := by
      apply BitVec.eq_of_toNat_eq
      have h3 := (tel 3).isLt; have h4 := (tel 4).isLt
      rw [BitVec.toNat_ofNat]; unfold destOf; omega
    rw [e1, e2] at this
    exact this
  obtain ⟨a1, a2, _⟩ := apci_service tel
  unfold receiveGroup
  simp only
  rw [if_pos (hs.elim (fun h => Or.inl (a1.mpr h)) (fun h => Or.inr (a2.mpr h))), hw]
  refine ⟨?_, rfl, rfl, rfl⟩
  apply (processGroupWrite_takes H S g tel none).congr
  intro i hi
  constructor
  · rintro ⟨h1, _, h2⟩; exact ⟨h1, h2⟩
  · rintro ⟨h1, h2⟩; exact ⟨h1, by simp, h2⟩

/-- **C55.** A group telegram of any other service than read, write and response changes nothing. -/
theorem C55_receive_other (B : Bcu) (s : St) (tel : Tel) (hs : serviceOf tel = .other) : receiveGroup B s tel = (s, []) := by
  obtain ⟨a1, a2, a3⟩ := apci_service tel
  unfold receiveGroup
  simp only
  rw [if_neg (fun c => by rcases c with c | c; exact absurd (a1.mp c) (by simp [hs]); exact absurd (a2.mp c) (by simp [hs])),
    if_neg (fun c => absurd (a3.mp c) (by simp [hs]))]

/-- A received write to group address 1/1/1 (0x0901) with value 1. -/
def demoTel : Tel := fun k => [0xBC#8, 0x12#8, 0x05#8, 0x09#8, 0x01#8, 0xe1#8, 0x00#8, 0x81#8].getD k 0#8
example : destOf demoTel = (0x0901#16).toNat ∧ serviceOf demoTel = .write := by decide
example : (value BCU1 (receiveGroup BCU1 ⟨demoM, fun _ => 0, 0⟩ demoTel).1.mem demoC.objs[0] = [1#8]) ∧
    (value BCU1 (receiveGroup BCU1 ⟨demoM, fun _ => 0, 0⟩ demoTel).1.mem demoC.objs[3] = [1#8]) ∧
    (value BCU1 (receiveGroup BCU1 ⟨demoM, fun _ => 0, 0⟩ demoTel).1.mem demoC.objs[1] = [0#8, 0#8]) := by decide +kernel

/-! ## C19: from device to device -/

/-- **C19.** A device sends the value of object `j` (any call of the sender that sends it, see C57); another device, of
any of the modelled kinds and with any configuration, receives the telegram. Then every writable object of the same type
that the receiver has associated with the group address holds exactly the value of the sender's object and is marked
updated; all other objects and the rest of the memory of the receiver are unchanged. For the types of at most 6 bits the
value must fit into 6 bits. -/
theorem C19_device_to_device {B B' : Bcu} {C C' : Config} {s s' r : St} {j : Nat} {hj : j < C.objs.length} {f : List Byte}
    (hsend : SendsObject B C s s' j hj [f]) (hw : ¬ WantsRead s.mem C j)
    (hbits : C.objs[j].type < 6 → ((value B s.mem C.objs[j]).headD 0#8).toNat < 64)
    (S' : Separate B' C') (Hr : Configured B' r.mem C') (tel : Tel) (hc : Carries tel f) :
    (∀ i, (hi : i < C'.objs.length) → Linked C' (sendAddr C j) i → Writable C'.objs[i] → C'.objs[i].type = C.objs[j].type →
      value B' (receiveGroup B' r tel).1.mem C'.objs[i] = value B s.mem C.objs[j] ∧
      flags (receiveGroup B' r tel).1.mem C' i = flags r.mem C' i ||| 8#8) ∧
    (∀ i, (hi : i < C'.objs.length) → ¬ (Linked C' (sendAddr C j) i ∧ Writable C'.objs[i]) →
      value B' (receiveGroup B' r tel).1.mem C'.objs[i] = value B' r.mem C'.objs[i] ∧
      flags (receiveGroup B' r tel).1.mem C' i = flags r.mem C' i) ∧
    (∀ a, ¬ inData B' C' a → (receiveGroup B' r tel).1.mem a = r.mem a) := by
  obtain ⟨f', hff, _, _, hfr⟩ := hsend.frame
  obtain rfl : f = f' := by simpa using hff
  obtain ⟨d1, d2, d3⟩ := body_decoded (Or.inl rfl) (value_length B s.mem _) hbits (hfr hw) hc
  obtain ⟨T, _⟩ := C55_receive_value S' r Hr tel (sendAddr C j) d1 (Or.inl (by rw [d3, if_pos rfl]))
  refine ⟨?_, ?_, T.keepRest⟩
  · intro i hi hl hwr ht
    refine ⟨?_, T.flags i hi ⟨hl, hi, hwr⟩⟩
    rw [T.value i hi ⟨hl, hi, hwr⟩, ht, d2]
  · intro i hi hno
    have hno' : ¬ (Linked C' (sendAddr C j) i ∧ ∃ h : i < C'.objs.length, Writable C'.objs[i]) := fun c => hno ⟨c.1, c.2.2⟩
    exact ⟨T.keepValue i hi hno', T.keepFlags i hi hno'⟩

/-- The frame on the wire as received: sender address filled in. -/
def onWire (f : List Byte) (own : Word) : Tel := fun k =>
  if k = 1 then BitVec.ofNat 8 (own.toNat / 256) else if k = 2 then BitVec.ofNat 8 own.toNat else f.getD k 0xAA#8

theorem onWire_carries (f : List Byte) (own : Word) : Carries (onWire f own) f := by
  intro k hk h
  unfold onWire
  rw [if_neg (by omega), if_neg (by omega)]
  simp [h]

-- a 14-byte text from a BCU1 to a mask 0701 device, where the objects have different numbers and addresses
example :
    let s : St := ⟨objectWriteBytes BCU1 demoM 2 (fun k => BitVec.ofNat 8 (k + 65)), fun _ => 0xEE#8, 0⟩
    let f := (sendNextGroupTelegram BCU1 s).2.2.headD []
    let r : St := ⟨demoM2, fun _ => 0, 0⟩
    f.length = 22 ∧
    value MASK0701 (receiveGroup MASK0701 r (onWire f 0x1203#16)).1.mem demoC2.objs[0] = value BCU1 s.mem demoC.objs[2] ∧
    value BCU1 s.mem demoC.objs[2] = (List.range 14).map (fun k => BitVec.ofNat 8 (k + 65)) := by decide +kernel

/-- **C19, negative.** Why the value must fit: for the types of at most 6 bits the sender does not mask the value, which
then runs into the service code. The application of device A writes 64 to a 1-bit object with `objectWrite`; the telegram
sent is not a group write, and the object of device B is not changed. -/
theorem C19_wide_bits_corrupt : ∃ (v : U32),
    let s : St := ⟨objectWrite BCU1 demoM 0 v, fun _ => 0, 0⟩
    let f := (sendNextGroupTelegram BCU1 s).2.2.headD []
    let r : St := ⟨demoM2, fun _ => 0, 0⟩
    (sendNextGroupTelegram BCU1 s).2.1 = true ∧ Linked demoC2 (sendAddr demoC 0) 1 ∧ Writable demoC2.objs[1] ∧
    demoC2.objs[1].type = demoC.objs[0].type ∧ serviceOf (onWire f 0x1203#16) = .other ∧
    value MASK0701 (receiveGroup MASK0701 r (onWire f 0x1203#16)).1.mem demoC2.objs[1] ≠ value BCU1 s.mem demoC.objs[0] := by
  refine ⟨0x40#32, ?_⟩
  refine ⟨by decide +kernel, ⟨2, by decide, by decide⟩, by unfold Writable; decide, by decide, by decide +kernel, by decide +kernel⟩

/-! ## C56: read requests -/

instance (o : Obj) : Decidable (Readable o) := by unfold Readable; infer_instance

/-- The association belongs to `g` and its object is readable. -/
def answersTo (C : Config) (g : Word) (p : Nat × Nat) : Bool :=
  decide (C.groups[p.1 - 1]? = some g) && (C.objs[p.2]?).any (fun o => decide (Readable o))

/-- The objects that answer a read request for `g`, in the order of the association table. -/
def answering (C : Config) (g : Word) : List Nat := (C.assoc.filter (answersTo C g)).map (·.2)

theorem answersTo_iff (C : Config) (g : Word) (p : Nat × Nat) : answersTo C g p = true ↔
    C.groups[p.1 - 1]? = some g ∧ ∃ h : p.2 < C.objs.length, Readable C.objs[p.2] := by
  unfold answersTo
  rw [Bool.and_eq_true, decide_eq_true_eq]
  apply and_congr Iff.rfl
  by_cases h : p.2 < C.objs.length
  · simp [h]
  · simp [h]

/-- The objects `os` answer one after the other: each sends a response telegram with its current value, and the other
writable objects on the address take the sent value. -/
inductive Answers (B : Bcu) (C : Config) (g : Word) : List Nat → Mem → Mem → List (List Byte) → Prop
  | nil (m) : Answers B C g [] m m []
  | cons {o os m m1 m2 f fs tel} (ho : o < C.objs.length)
      (frame : IsFrame f (valueBody g C.objs[o] (value B m C.objs[o]) 0x40#8)) (carries : Carries tel f)
      (sync : Takes B C (fun i => Linked C g i ∧ i ≠ o ∧ ∃ h : i < C.objs.length, Writable C.objs[i]) tel m m1)
      (rest : Answers B C g os m1 m2 fs) : Answers B C g (o :: os) m m2 (f :: fs)

theorem carries_prepared (t : Tel) : Carries t (prepared t) := by
  intro k _ hk
  simp [prepared]

theorem readAssocLoop_spec {B : Bcu} {C : Config} (S : Separate B C) (g : Word) (gapos : Nat)
    (hpos : ∀ p ∈ C.assoc, gapos = p.1 ↔ C.groups[p.1 - 1]? = some g) :
    ∀ (n : Nat) (s : St), Configured B s.mem C → n ≤ C.assoc.length →
    Answers B C g (((C.assoc.drop (C.assoc.length - n)).filter (answersTo C g)).map (·.2)) s.mem
      (readAssocLoop B g gapos n (C.assocAt + 1 + (C.assoc.length - n) * 2) s).1.mem
      (readAssocLoop B g gapos n (C.assocAt + 1 + (C.assoc.length - n) * 2) s).2
  | 0, s, _, _ => by
    rw [Nat.sub_zero, List.drop_length]
    exact Answers.nil _
  | n + 1, s, H, hn => by
    have hlt : C.assoc.length - (n + 1) < C.assoc.length := by omega
    have ih := fun s H => readAssocLoop_spec S g gapos hpos n s H (by omega)
    obtain ⟨k, hk⟩ : ∃ k, C.assoc.length - (n + 1) = k := ⟨_, rfl⟩
    have hk1 : C.assoc.length - n = k + 1 := by omega
    rw [hk] at hlt ⊢
    rw [hk1] at ih
    obtain ⟨e1, e2⟩ := assocEntry_eq H k hlt
    unfold readAssocLoop
    rw [e1, e2, List.drop_eq_getElem_cons hlt]
    have ep : C.assocAt + 1 + k * 2 + 2 = C.assocAt + 1 + (k + 1) * 2 := by omega
    rw [ep]
    have hm := List.getElem_mem hlt
    obtain ⟨v1, v2, v3⟩ := H.valid.assocs _ hm
    by_cases hg : gapos = C.assoc[k].1
    · rw [if_neg (by simp [hg])]
      simp only
      rw [objectConfig_eq H _ v3]
      by_cases hr : Readable C.objs[C.assoc[k].2]
      · rw [if_pos ((and0c _).mpr hr), List.filter_cons_of_pos (by
          rw [answersTo_iff]; exact ⟨(hpos _ hm).mp hg, v3, hr⟩), List.map_cons]
        have T := processGroupWrite_takes H S g (groupWriteTel B s.mem s.buf C.assoc[k].2 g true) (some C.assoc[k].2)
        refine Answers.cons (tel := groupWriteTel B s.mem s.buf C.assoc[k].2 g true) v3
          (groupWriteTel_frame H _ v3 s.buf g true) (carries_prepared _)
          (m1 := (sendGroupWrite B s C.assoc[k].2 g true).1.mem) ?_ ?_
        · apply T.congr
          intro i hi
          constructor
          · rintro ⟨h1, h2, h3⟩; exact ⟨h1, fun c => h2 (by rw [c]), h3⟩
          · rintro ⟨h1, h2, h3⟩; exact ⟨h1, fun c => h2 (Option.some.inj c), h3⟩
        · exact ih (sendGroupWrite B s C.assoc[k].2 g true).1 (T.configured H)
      · rw [if_neg (fun c => hr ((and0c _).mp c)), List.filter_cons_of_neg (by
          rw [answersTo_iff]; rintro ⟨_, _, h⟩; exact hr h)]
        exact ih s H
    · rw [if_pos hg, List.filter_cons_of_neg (by
        rw [answersTo_iff]; rintro ⟨h, _⟩; exact hg ((hpos _ hm).mpr h))]
      exact ih s H

theorem makeWord_dest {tel : Tel} {g : Word} (hg : destOf tel = g.toNat) : makeWord (tel 3) (tel 4) = g := by
  apply BitVec.eq_of_toNat_eq
  rw [← hg]
  have h3 := (tel 3).isLt
  have h4 := (tel 4).isLt
  have := makeWord_be (destOf tel) (by unfold destOf; omega)
  have e1 : BitVec.ofNat 8 (destOf tel / 256) = tel 3 := by
    apply BitVec.eq_of_toNat_eq
    rw [BitVec.toNat_ofNat]; unfold destOf; omega
  have e2 : BitVec.ofNat 8 (destOf tel) = tel 4 := by
    apply BitVec.eq_of_toNat_eq
    rw [BitVec.toNat_ofNat]; unfold destOf; omega
  rw [e1, e2] at this
  exact this

/-- **C56.** A read request for a group address is answered by exactly the readable objects associated with it, in the
order of the association table, each with one response telegram that carries its current value. -/
theorem C56_read_answered {B : Bcu} {C : Config} (S : Separate B C) (s : St) (H : Configured B s.mem C) (tel : Tel) (g : Word)
    (hg : destOf tel = g.toNat) (hs : serviceOf tel = .read) :
    Answers B C g (answering C g) s.mem (receiveGroup B s tel).1.mem (receiveGroup B s tel).2 := by
  obtain ⟨a1, a2, a3⟩ := apci_service tel
  unfold receiveGroup
  simp only
  rw [if_neg (fun c => by rcases c with c | c; exact absurd (a1.mp c) (by simp [hs]); exact absurd (a2.mp c) (by simp [hs])),
    if_pos (a3.mpr hs), makeWord_dest hg]
  split
  · rename_i hn
    have : answering C g = [] := by
      unfold answering
      rw [List.filter_eq_nil_iff.mpr]
      · rfl
      · intro p hp
        rw [answersTo_iff]
        rintro ⟨h, _⟩
        exact indexOfAddr_none H hn (List.mem_of_getElem? h)
    rw [this]
    exact Answers.nil _
  · rename_i r hr
    rw [assocTable_eq H]
    simp only [Option.getD_some]
    rw [assocCount_eq H]
    have := readAssocLoop_spec S g r (fun p hp => linked_index H hr p hp) C.assoc.length s H (Nat.le_refl _)
    simpa [answering] using this

/-- **C56.** If no readable object is associated with the address, a read request sends nothing and changes nothing. -/
theorem C56_unanswered {B : Bcu} {C : Config} (S : Separate B C) (s : St) (H : Configured B s.mem C) (tel : Tel) (g : Word)
    (hg : destOf tel = g.toNat) (hs : serviceOf tel = .read) (hno : ∀ i, (h : i < C.objs.length) → Linked C g i → ¬ Readable C.objs[i]) :
    (receiveGroup B s tel).2 = [] ∧ (receiveGroup B s tel).1.mem = s.mem := by
  have A := C56_read_answered S s H tel g hg hs
  have : answering C g = [] := by
    unfold answering
    rw [List.filter_eq_nil_iff.mpr]
    · rfl
    · intro p hp
      rw [answersTo_iff]
      rintro ⟨h, hi, hr⟩
      exact hno p.2 hi ⟨p.1, hp, h⟩ hr
  rw [this] at A
  generalize (receiveGroup B s tel).1.mem = m' at A
  generalize (receiveGroup B s tel).2 = fs at A
  cases A
  exact ⟨rfl, rfl⟩

/-- **C56.** If exactly one readable object is associated with the address (as KNX requires of a configuration), the one
response carries its value, its own value and flags are unchanged, and the asking device, when it receives the
response, has the value in its writable objects of the same type on this address. -/
theorem C56_read_round_trip {B B' : Bcu} {C C' : Config} (S : Separate B C) (s : St) (H : Configured B s.mem C) (tel : Tel) (g : Word)
    (hg : destOf tel = g.toNat) (hs : serviceOf tel = .read) (o : Nat) (ho : o < C.objs.length) (hone : answering C g = [o])
    (hbits : C.objs[o].type < 6 → ((value B s.mem C.objs[o]).headD 0#8).toNat < 64)
    (S' : Separate B' C') (r : St) (Hr : Configured B' r.mem C') :
    ∃ f, (receiveGroup B s tel).2 = [f] ∧
      value B (receiveGroup B s tel).1.mem C.objs[o] = value B s.mem C.objs[o] ∧
      flags (receiveGroup B s tel).1.mem C o = flags s.mem C o ∧
      ∀ tel', Carries tel' f → ∀ i, (hi : i < C'.objs.length) → Linked C' g i → Writable C'.objs[i] →
        C'.objs[i].type = C.objs[o].type →
        value B' (receiveGroup B' r tel').1.mem C'.objs[i] = value B s.mem C.objs[o] ∧
        flags (receiveGroup B' r tel').1.mem C' i = flags r.mem C' i ||| 8#8 := by
  have A := C56_read_answered S s H tel g hg hs
  rw [hone] at A
  generalize (receiveGroup B s tel).1.mem = m' at A ⊢
  generalize (receiveGroup B s tel).2 = fs at A ⊢
  cases A with
  | cons ho' frame carries sync rest =>
    rename_i m1 f fs' tel2
    cases rest
    have hno : ¬ (Linked C g o ∧ o ≠ o ∧ ∃ h : o < C.objs.length, Writable C.objs[o]) := fun c => c.2.1 rfl
    refine ⟨f, rfl, sync.keepValue o ho hno, sync.keepFlags o ho hno, ?_⟩
    intro tel' hc i hi hl hwr ht
    obtain ⟨d1, d2, d3⟩ := body_decoded (Or.inr rfl) (value_length B s.mem _) hbits frame hc
    obtain ⟨T, _⟩ := C55_receive_value S' r Hr tel' g d1 (Or.inr (by rw [d3, if_neg (by decide)]))
    refine ⟨?_, T.flags i hi ⟨hl, hi, hwr⟩⟩
    rw [T.value i hi ⟨hl, hi, hwr⟩, ht, d2]

/-- A received read request for group address 1/2/2 (0x0A02). -/
def demoReadTel : Tel := fun k => [0xBC#8, 0x12#8, 0x05#8, 0x0A#8, 0x02#8, 0xe1#8, 0x00#8, 0x00#8].getD k 0#8
example : destOf demoReadTel = (0x0A02#16).toNat ∧ serviceOf demoReadTel = .read := by decide
example : (receiveGroup BCU1 ⟨objectSetValue BCU1 demoM 1 0x1234#32, fun _ => 0, 0⟩ demoReadTel).2 =
    [[0xBC#8, 0, 0, 0x0A#8, 0x02#8, 0xe3#8, 0, 0x40#8, 0x12#8, 0x34#8]] := by decide +kernel
theorem demo_answering : answering demoC 0x0A02#16 = [1] := by decide +kernel
example := C56_read_round_trip demo_separate ⟨demoM, fun _ => 0, 0⟩ demo_configured demoReadTel 0x0A02#16 (by decide) (by decide)
  1 (by decide) demo_answering (fun h => absurd h (by decide)) demo2_separate ⟨demoM2, fun _ => 0, 0⟩ demo2_configured

/-! ## C20: address table -/

/-- **C20 (partial).** `indexOfAddr` finds every group address of the table at its position, and what it finds is in the
table - except possibly one position behind the end of the table. Missing: an address that is not in the table may be
found there, see `C20_reads_past_end`. -/
theorem C20_lookup_partial {B : Bcu} {m : Mem} {C : Config} (H : Configured B m C) (addr : Word) :
    (∀ k, (hk : k < C.groups.length) → C.groups[k] = addr → indexOfAddr B m addr = some (k + 1)) ∧
    (∀ r, indexOfAddr B m addr = some r → r ≤ C.groups.length → C.groups[r - 1]? = some addr) ∧
    (addr ∉ C.groups → indexOfAddr B m addr = none ∨ indexOfAddr B m addr = some (C.groups.length + 1)) := by
  refine ⟨?_, ?_, ?_⟩
  · intro k hk e
    have hmem : addr ∈ C.groups := e ▸ List.getElem_mem hk
    rcases h : indexOfAddr B m addr with _ | r
    · exact absurd hmem (indexOfAddr_none H h)
    · obtain ⟨h1, h2 | ⟨_, h2⟩⟩ := indexOfAddr_some H h
      · have := nodup_unique H.valid.distinct h2 (by rw [List.getElem?_eq_getElem hk, e])
        congr 1; omega
      · exact absurd hmem h2
  · intro r h hr
    obtain ⟨h1, h2 | ⟨h2, _⟩⟩ := indexOfAddr_some H h
    · exact h2
    · omega
  · intro hno
    rcases h : indexOfAddr B m addr with _ | r
    · exact Or.inl rfl
    · obtain ⟨h1, h2 | ⟨h2, _⟩⟩ := indexOfAddr_some H h
      · exact absurd (List.mem_of_getElem? h2) hno
      · exact Or.inr (by rw [h2])

/-- **C20, negative.** The number in the table counts the individual address too, so the search reads one entry too many:
with the association table directly behind the address table, a group address that is not configured is found. -/
theorem C20_reads_past_end : ∃ (B : Bcu) (m : Mem) (C : Config) (addr : Word),
    Configured B m C ∧ addr ∉ C.groups ∧ indexOfAddr B m addr ≠ none :=
  ⟨BCU1, demoM, demoC, 0x0401#16, demo_configured, by decide, by decide +kernel⟩

/-- **C20.** The entry found behind the table has no effect on the objects: a telegram to an address that is not in the
table changes no value, no flag and nothing else in the memory, and is not answered. -/
theorem C20_foreign_address_no_effect {B : Bcu} {C : Config} (S : Separate B C) (s : St) (H : Configured B s.mem C) (tel : Tel)
    (g : Word) (hg : destOf tel = g.toNat) (hno : g ∉ C.groups) :
    (receiveGroup B s tel).2 = [] ∧
    (∀ i, (hi : i < C.objs.length) → value B (receiveGroup B s tel).1.mem C.objs[i] = value B s.mem C.objs[i] ∧
      flags (receiveGroup B s tel).1.mem C i = flags s.mem C i) ∧
    (∀ a, ¬ inData B C a → (receiveGroup B s tel).1.mem a = s.mem a) := by
  have hnl : ∀ i, ¬ Linked C g i := fun i ⟨k, _, hk⟩ => hno (List.mem_of_getElem? hk)
  have hval : serviceOf tel = .write ∨ serviceOf tel = .response → _ := fun h => C55_receive_value S s H tel g hg h
  have fin := fun h => by
    obtain ⟨T, h2, _⟩ := hval h
    exact (⟨h2, fun i hi => ⟨T.keepValue i hi (fun c => hnl i c.1), T.keepFlags i hi (fun c => hnl i c.1)⟩, T.keepRest⟩ :
      (receiveGroup B s tel).2 = [] ∧
      (∀ i, (hi : i < C.objs.length) → value B (receiveGroup B s tel).1.mem C.objs[i] = value B s.mem C.objs[i] ∧
        flags (receiveGroup B s tel).1.mem C i = flags s.mem C i) ∧
      (∀ a, ¬ inData B C a → (receiveGroup B s tel).1.mem a = s.mem a))
  rcases hs : serviceOf tel with _ | _ | _ | _
  · obtain ⟨h1, h2⟩ := C56_unanswered S s H tel g hg hs (fun i _ hl => absurd hl (hnl i))
    rw [h2]
    exact ⟨h1, fun i hi => ⟨rfl, rfl⟩, fun a _ => rfl⟩
  · exact fin (Or.inl hs)
  · exact fin (Or.inr hs)
  · rw [C55_receive_other B s tel hs]
    exact ⟨rfl, fun i hi => ⟨rfl, rfl⟩, fun a _ => rfl⟩

/-- Address table of a System B device: number of group addresses (two bytes), group addresses. -/
def addrImageB (groups : List Word) : List Byte := be16 groups.length ++ groups.flatMap (fun g => be16 g.toNat)

/-- **C20.** System B: the lookup is exact. -/
theorem C20_systemB_exact (m : Mem) (tab : Nat) (groups : List Word) (hn : groups.length < 65536)
    (h : At m tab (addrImageB groups)) (addr : Word) :
    (∀ r, indexOfAddrSystemB m tab addr = some r → 1 ≤ r ∧ groups[r - 1]? = some addr) ∧
    (indexOfAddrSystemB m tab addr = none ↔ addr ∉ groups) := by
  have hcount : (m tab).toNat * 256 + (m (tab + 1)).toNat = groups.length := by
    have h0 := h.get (i := 0) (b := BitVec.ofNat 8 (groups.length / 256)) rfl
    have h1 := h.get (i := 1) (b := BitVec.ofNat 8 groups.length) rfl
    rw [Nat.add_zero] at h0
    rw [h0, h1, BitVec.toNat_ofNat, BitVec.toNat_ofNat]
    omega
  have hmatch : ∀ k, (hk : k < groups.length) → (((m (tab + 2 + k * 2)).toNat = addr.toNat / 256 ∧
      (m (tab + 2 + k * 2 + 1)).toNat = addr.toNat % 256) ↔ groups[k] = addr) := by
    intro k hk
    have e0 := at_entry (hdr := be16 groups.length) 2 h (fun _ => rfl) k 0 hk (by omega) rfl
    have e1 := at_entry (hdr := be16 groups.length) 2 h (fun _ => rfl) k 1 hk (by omega) rfl
    have hl : (be16 groups.length).length = 2 := rfl
    rw [hl] at e0 e1
    rw [Nat.add_zero] at e0
    rw [e0, e1, BitVec.toNat_ofNat, BitVec.toNat_ofNat]
    have h1 := groups[k].isLt
    have h2 := addr.isLt
    constructor
    · rintro ⟨e1, e2⟩
      apply BitVec.eq_of_toNat_eq
      omega
    · intro e; rw [e]; omega
  have hl := indexLoop_spec m addr groups.length 1 (tab + 2)
  unfold indexOfAddrSystemB
  rw [hcount]
  refine ⟨?_, ?_, ?_⟩
  · intro r hr
    obtain ⟨h1, h2, h3, h4, _⟩ := hl.1 r hr
    have hk : r - 1 < groups.length := by omega
    refine ⟨h1, ?_⟩
    rw [List.getElem?_eq_getElem hk, (hmatch _ hk).mp ⟨h3, h4⟩]
  · intro hnone hm
    obtain ⟨k, hk, e⟩ := List.getElem_of_mem hm
    exact hl.2 hnone k hk ((hmatch k hk).mpr e)
  · intro hno
    rcases hr : indexLoop m addr groups.length 1 (tab + 2) with _ | r
    · rfl
    · obtain ⟨h1, h2, h3, h4, _⟩ := hl.1 r hr
      have hk : r - 1 < groups.length := by omega
      exact absurd ((hmatch _ hk).mp ⟨h3, h4⟩ ▸ List.getElem_mem hk) hno

example : indexOfAddr BCU1 demoM 0x0A02#16 = some 2 ∧ indexOfAddr BCU1 demoM 0x0A03#16 = none := by decide +kernel
example : At (fun a => (addrImageB [0x0901#16, 0x0A02#16]).getD a 0) 0 (addrImageB [0x0901#16, 0x0A02#16]) ∧
    indexOfAddrSystemB (fun a => (addrImageB [0x0901#16, 0x0A02#16]).getD a 0) 0 0x0A02#16 = some 2 := by
  refine ⟨?_, by decide +kernel⟩
  unfold At; decide +kernel

end Verif.Com
