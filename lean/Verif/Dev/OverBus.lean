import Verif.Dev.Compose
import Verif.TL4.PropsDialogue

/-!
# C109: memory services over an unreliable bus

The dialogue of `TL4/Dialogue.lean` with the management services of the device as the application: a
client reads and writes memory over a bus that loses and duplicates telegrams.
-/

namespace Verif.Dev

open Verif.Knx

variable {W : World}

/-- `f` is a data telegram to `p` with the number `j` that says: these bytes stand at the address `a`. -/
structure MemoryFrame (p : Word) (j : Nat) (f : List Byte) (a : Word) (data : List Byte) : Prop where
  length : f.length = 10 + data.length
  dest : f.getD 3 0#8 ++ f.getD 4 0#8 = (p : BitVec (8 + 8))
  numbered : (f.getD 6 0#8).extractLsb' 6 2 = 0b01#2
  number : ((f.getD 6 0#8).extractLsb' 2 4).toNat = j % 16
  service : (f.getD 6 0#8).extractLsb' 0 2 = 0b10#2 ∧ (f.getD 7 0#8).toNat = 0x40 + data.length
  addr : makeWord (f.getD 8 0#8) (f.getD 9 0#8) = a
  data : f.drop 10 = data

theorem memoryFrame {p : Word} {j : Nat} {t raw : Buf} {f : List Byte} {a : Word} {data : List Byte}
    (hi : TL4.IsAnswer p j t raw f) (hm : MemResponse raw a data) (hs : data.length ≤ 12) :
    MemoryFrame p j f a data := by
  have hlen : f.length = 10 + data.length := by
    rw [hi.length]
    have h5 := hm.len
    have : raw 5 = BitVec.ofNat 8 (0x60 + 3 + data.length) := by
      apply BitVec.eq_of_toNat_eq
      rw [h5, BitVec.toNat_ofNat, Nat.mod_eq_of_lt (by omega)]
    rw [this]
    have k : ∀ n : Nat, n < 13 → 7 + (BitVec.ofNat 8 (0x60 + 3 + n) &&& 15#8).toNat = 10 + n := by decide
    exact k _ (by omega)
  refine ⟨hlen, hi.dest, hi.numbered, ?_, ⟨?_, ?_⟩, ?_, ?_⟩
  · rw [← hi.number]
    generalize f.getD 6 0#8 = x
    revert x; decide +kernel
  · rw [hi.service, hm.apciHigh]; decide
  · rw [hi.rest 7 (by omega) (by omega), hm.apciLow]
  · rw [hi.rest 8 (by omega) (by omega), hi.rest 9 (by omega) (by omega), hm.addr]
  · apply List.ext_getElem
    · rw [List.length_drop, hlen]; omega
    · intro i h1 h2
      rw [List.getElem_drop]
      have h3 := hi.rest (10 + i) (by omega) (by omega)
      rw [hm.data i h2] at h3
      rw [List.getD_eq_getElem?_getD, List.getElem?_eq_getElem (by omega),
        List.getD_eq_getElem?_getD, List.getElem?_eq_getElem h2] at h3
      exact h3

theorem app_plain (group : Dev → Buf → Nat → Dev × Option (Buf → Buf))
    (hg : ∀ d t l f b, (group d t l).2 = some f → f b 6 &&& 0xFC#8 = 0#8) (ext : Nat → Dev → Dev) :
    TL4.AppPlain (disturbed (app W group) ext) where
  apci := fun a t l b h => plain_data (processApci_six (ext a.2 a.1) t l b h)
  broadcast := fun a t _ f b h => broadcast_six (ext a.2 a.1) t f b h
  group := fun a t l f b h => hg (ext a.2 a.1) t l f b h

/-- A client that reads memory and, on a BCU1 (which does not answer memory writes), also writes it. -/
structure MemoryClient (W : World) (req : Nat → Buf) : Prop where
  service : ∀ i, apciCommand (req i) = 0x200#16 ∨ (W.kind = .bcu1 ∧ apciCommand (req i) = 0x280#16)

/-- It expects answers to the reads. -/
def memoryClient (req ack : Nat → Buf) : TL4.Client (Dev × Nat) where
  req := req
  ack := ack
  expects t := apciCommand t == 0x200#16
  lens _ _ := True
  known _ _ := True

theorem bcu1_silent (hk : W.kind = .bcu1) (d : Dev) : autoResponse W d = false := by
  unfold autoResponse
  rw [hk]
  rfl

theorem memory_expected (group : Dev → Buf → Nat → Dev × Option (Buf → Buf)) (ext : Nat → Dev → Dev)
    (req ack : Nat → Buf) (hm : MemoryClient W req) :
    TL4.Expected (disturbed (app W group) ext) (memoryClient req ack) where
  answer := by
    intro i a l b _ _
    show (processApci W (ext a.2 a.1) (req i) l b).2.2 = (apciCommand (req i) == 0x200#16)
    rcases hm.service i with h | ⟨hk, h⟩
    · rw [apply_memRead _ _ _ _ h, h]; rfl
    · rw [apply_memWrite _ _ _ _ h, bcu1_silent hk, Bool.and_false, h]; rfl
  next := fun _ _ _ _ _ _ => trivial
  broadcast := fun _ _ _ _ _ => trivial
  group := fun _ _ _ _ _ => trivial

open TL4 TL4.Spec in
/-- C109 (partial: the conditions of C22 on the memory accesses): a client reads memory (and writes it, on
a BCU1) over a bus that loses and duplicates telegrams.  The requests processed are the first `r` of the
client, in order and each once.  The data telegrams the client takes are the answers to the first reads
processed, in order: telegram number `j` carries the address of the `j`-th read and the bytes that stood
there when the device processed it, or no bytes if one of the addresses does not exist. -/
theorem C109_memory_partial (group : Dev → Buf → Nat → Dev × Option (Buf → Buf))
    (hg : ∀ d t l f b, (group d t l).2 = some f → f b 6 &&& 0xFC#8 = 0#8)
    (ext : Nat → Dev → Dev) (p d : Word) (req ack : Nat → Buf) (hreq : Requests p d req) (hack : Acks p ack)
    (hm : MemoryClient W req)
    (s : State (Dev × Nat)) (hs : Reachable (disturbed (app W group) ext) s)
    (hcl : s.phase = .closed) (hfree : s.tx = .free) (c : Buf) (len : Nat)
    (hu : UnicastTo s.ownAddr c) (hc : isConnect c = true) (hsrc : src c = p) (z : Dialogue (Dev × Nat))
    (hz : DReach (disturbed (app W group) ext) p (memoryClient req ack)
      { sys := { dev := (step (disturbed (app W group) ext) s (.rx c len)).1, current := 0, toDevice := [],
                 toClient := [], log := [] }
        fromDevice := [], acks := [], got := [], executed := [] } z) :
    (∃ r, z.executed.map (fun e => e.2.1) = (List.range r).map req ∧
      z.sys.current ≤ r ∧ r ≤ z.sys.current + 1) ∧
    ∀ j f, z.got[j]? = some f →
      ∃ e, (z.executed.filter fun e => apciCommand e.2.1 == 0x200#16)[j]? = some e ∧
      ∀ a n, MemReadRequest e.2.1 a n → MemCond W (ext e.1.2 e.1.1) a n →
        (∀ data, data.length = n → n ≠ 0 →
          (∀ i, i < n → space W (ext e.1.2 e.1.1) (a.toNat + i) = some (data.getD i 0#8)) →
          MemoryFrame p j f a data) ∧
        (n = 0 ∨ ¬ AllPresent W (ext e.1.2 e.1.1) a n → MemoryFrame p j f a []) := by
  obtain ⟨⟨r, h1, h2, h3, _⟩, _, _, _, h4⟩ := C109_dialogue _ (app_plain group hg ext) p d (memoryClient req ack) hreq hack
    (memory_expected group ext req ack hm) s hs hcl hfree trivial c len hu hc hsrc z hz
  refine ⟨⟨r, h1, h2, h3⟩, fun j f hj => ?_⟩
  obtain ⟨e, he, b, hi⟩ := h4 j f hj
  refine ⟨e, he, fun a n hr hcond => ?_⟩
  have hi' : IsAnswer p j e.2.1 (processApci W (ext e.1.2 e.1.1) e.2.1 e.2.2 b).2.1 f := hi
  obtain ⟨_, _, k3, k4⟩ := C22_read_partial (ext e.1.2 e.1.1) e.2.1 e.2.2 b a n hr hcond
  have hshort := hcond.short
  exact ⟨fun data hd hn hsp => memoryFrame hi' (k3 data hd hn hsp) (by omega),
    fun h => memoryFrame hi' (k4 h) (by simp)⟩

/-! Non-vacuity: a BCU1 whose memory is disturbed between the requests; the client writes two bytes into
its EEPROM and reads them back. The first transmission of the write and of the answer get lost. -/

def exWorld1 : World := ⟨.bcu1, MemMap.dEnv, MemMap.dCfgFixed⟩

def exBusApp : TL4.App (Dev × Nat) :=
  disturbed (app exWorld1 exSilent) (fun n d => { d with status := BitVec.ofNat 8 n })

/-- even requests: write 0xAB 0xCD at 0x120; odd requests: read two bytes there -/
def exBusReq (i : Nat) : Buf := fun k =>
  ([0xB0#8, 0x11#8, 0xFE#8, 0x11#8, 0x05#8, if i % 2 = 0 then 0x65#8 else 0x63#8,
    0x42#8 ||| ((BitVec.ofNat 4 i).setWidth 8 <<< (2 : Nat)), if i % 2 = 0 then 0x82#8 else 0x02#8,
    0x01#8, 0x20#8, 0xAB#8, 0xCD#8]).getD k 0#8

theorem exBusReq_ok : TL4.Requests 0x11FE#16 0x1105#16 exBusReq := by
  have num : ∀ n : BitVec 4, (0x42#8 ||| (n.setWidth 8 <<< (2 : Nat))).extractLsb' 6 2 = 0b01#2 := by
    decide +kernel
  have sq : ∀ n : BitVec 4, TL4.Spec.seqOf (0x42#8 ||| (n.setWidth 8 <<< (2 : Nat))) = n.toNat := by
    decide +kernel
  refine ⟨by decide, fun i => ?_, fun i => ?_, fun i => ?_, fun i => ?_, fun i => ?_⟩
  · show (if i % 2 = 0 then 0x65#8 else 0x63#8).getLsbD 7 = false
    split <;> decide
  · show 0x11#8 ++ 0x05#8 = (0x1105#16 : BitVec (8 + 8))
    decide
  · show 0x11#8 ++ 0xFE#8 = (0x11FE#16 : BitVec (8 + 8))
    decide
  · simp only [TL4.Spec.isNumberedData, exBusReq, List.getD_cons_succ, List.getD_cons_zero]
    rw [num]; rfl
  · simp only [exBusReq, List.getD_cons_succ, List.getD_cons_zero]
    rw [sq]; simp

theorem exBusClient : MemoryClient exWorld1 exBusReq := by
  refine ⟨fun i => ?_⟩
  have k : ∀ n : BitVec 4, ∀ b : Bool, apciCommand (fun k => ([0xB0#8, 0x11#8, 0xFE#8, 0x11#8, 0x05#8,
      if b then 0x65#8 else 0x63#8, 0x42#8 ||| (n.setWidth 8 <<< (2 : Nat)), if b then 0x82#8 else 0x02#8,
      0x01#8, 0x20#8, 0xAB#8, 0xCD#8]).getD k 0#8) = if b then 0x280#16 else 0x200#16 := by decide +kernel
  have := k (BitVec.ofNat 4 i) (decide (i % 2 = 0))
  by_cases h : i % 2 = 0
  · right
    refine ⟨rfl, ?_⟩
    simp only [h, decide_true, if_true] at this
    exact (congrArg apciCommand (funext fun k => by unfold exBusReq; rw [if_pos h, if_pos h])).trans this
  · left
    simp only [h, decide_false, if_false, Bool.false_eq_true] at this
    exact (congrArg apciCommand (funext fun k => by unfold exBusReq; rw [if_neg h, if_neg h])).trans this

def exBusStart : TL4.State (Dev × Nat) := TL4.init 0x1105#16 0 (exDev, 0)

def exBusDialogue : TL4.Dialogue (Dev × Nat) :=
  { sys := { dev := (TL4.step exBusApp exBusStart (.rx (TL4.demoTel 0x11FE#16 0x1105#16 0x80#8) 7)).1
             current := 0, toDevice := [], toClient := [], log := [] }
    fromDevice := [], acks := [], got := [], executed := [] }

set_option maxRecDepth 100000 in
example : ∃ z, TL4.DReach exBusApp 0x11FE#16 (memoryClient exBusReq TL4.echoClient.ack) exBusDialogue z ∧
    z.sys.current = 2 ∧
    z.got = [[0xB0#8, 0#8, 0#8, 0x11#8, 0xFE#8, 0x65#8, 0x42#8, 0x42#8, 0x01#8, 0x20#8, 0xAB#8, 0xCD#8]] := by
  have q : ∀ (z : TL4.Dialogue (Dev × Nat)) op,
      (op = .loop ∨ (∃ ok, op = .txDone ok) ∨ ∃ ms, op = .advance ms) →
      TL4.DReach exBusApp 0x11FE#16 (memoryClient exBusReq TL4.echoClient.ack) exBusDialogue z →
      TL4.DReach exBusApp 0x11FE#16 (memoryClient exBusReq TL4.echoClient.ack) exBusDialogue
        (z.device exBusApp 0x11FE#16 op) :=
    fun z op h r => .step _ _ r (.other z op (TL4.foreignD_quiet _ _ _ _ _ h))
  have r0 : TL4.DReach exBusApp 0x11FE#16 (memoryClient exBusReq TL4.echoClient.ack) exBusDialogue
    exBusDialogue := .start
  have r1 := TL4.DReach.step _ _ r0 (.clientSend _ (by decide +kernel))
  have r2 := TL4.DReach.step _ _ r1 (.lose _ [] (exBusReq 0) [] rfl)
  have r3 := TL4.DReach.step _ _ r2 (.clientSend _ (by decide +kernel))
  have r4 := TL4.DReach.step _ _ r3 (.receive _ (exBusReq 0) [] 12 rfl trivial)
  have r5 := q _ (.txDone true) (by simp) r4
  have r6 := TL4.DReach.step _ _ r5 (.clientAck _ 0 [] (by decide +kernel))
  have r7 := TL4.DReach.step _ _ r6 (.clientSend _ (by decide +kernel))
  have r8 := TL4.DReach.step _ _ r7 (.receive _ (exBusReq 1) [] 10 rfl trivial)
  have r9 := q _ (.txDone true) (by simp) r8
  have r10 := q _ .loop (by simp) r9
  have r11 := TL4.DReach.step _ _ r10 (.loseData _ []
    [0xB0#8, 0#8, 0#8, 0x11#8, 0xFE#8, 0x65#8, 0x42#8, 0x42#8, 0x01#8, 0x20#8, 0xAB#8, 0xCD#8] []
    (by decide +kernel))
  have r12 := q _ (.txDone true) (by simp) r11
  have r13 := q _ (.advance 3000) (by simp) r12
  have r14 := q _ .loop (by simp) r13
  have r15 := TL4.DReach.step _ _ r14 (.clientData _
    [0xB0#8, 0#8, 0#8, 0x11#8, 0xFE#8, 0x65#8, 0x42#8, 0x42#8, 0x01#8, 0x20#8, 0xAB#8, 0xCD#8] []
    (by decide +kernel))
  have r16 := TL4.DReach.step _ _ r15 (.clientAck _ 1 [] (by decide +kernel))
  refine ⟨_, r16, ?_, ?_⟩ <;> decide +kernel

/-- The conditions on the memory access are met. -/
example : MemReadRequest (exBusReq 1) 0x120#16 2 ∧ MemCond exWorld1 exDev 0x120#16 2 ∧
    AllPresent exWorld1 exDev 0x120#16 2 := by
  refine ⟨⟨by decide, by decide, by decide⟩, ⟨fun s hs => (by cases hs), Or.inl rfl, fun h => absurd rfl h.1,
    by decide⟩, ?_⟩
  unfold AllPresent; decide

end Verif.Dev
