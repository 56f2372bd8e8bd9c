import Verif.TL4.Lemmas

/-!
# Transport layer: receive side (C01, C02)

C03 (composition with a client and a lossy bus) is in `Verif/TL4/EndToEnd.lean`, the remaining
properties are in `Verif/TL4/PropsSend.lean`.
-/

namespace Verif.TL4
open Knx Spec
variable {σ : Type}

/-! ## A concrete device for the non-vacuity examples

The application counts the requests it processed and always answers with its count. -/

def demoApp : App Nat where
  processApci n _ _ b := (n + 1, upd (upd b 5 0x61#8) 7 (BitVec.ofNat 8 n), true)
  broadcast n _ _ := (n, none)
  group n _ _ := (n, none)

/-- A 7-byte telegram from `s` to `d` with transport control byte `tp` (and one data byte). -/
def demoTel (s d : Word) (tp : Byte) : Buf := fun i =>
  [0xB0#8, highByte s, lowByte s, highByte d, lowByte d, 0x61#8, tp, 0x80#8].getD i 0#8

def demoInit : State Nat := init 0x1105#16 0 0
def demoOpen : State Nat := (step demoApp demoInit (.rx (demoTel 0x11FE#16 0x1105#16 0x80#8) 7)).1

/-! ## C01 -/

/-- C01: whatever a telegram from somebody other than the partner contains, the open connection
(state, partner, sequence numbers, timers, response buffers) is untouched, nothing is handed to the
application over the connection, and if the telegram is a connection-oriented one for us, the only
possible reaction is one T_DISCONNECT to the intruder. -/
theorem C01_intruder_step (A : App σ) (s : State σ) (tel : Buf) (len : Nat)
    (hopen : s.phase ≠ .closed) (hsrc : src tel ≠ s.connectedAddr) :
    connection (step A s (.rx tel len)).1 = connection s ∧
    delivered (step A s (.rx tel len)).2 = [] ∧
    dataSent (step A s (.rx tel len)).2 = [] ∧
    (UnicastTo s.ownAddr tel → isConnectionless tel = false →
      (step A s (.rx tel len)).2 = [] ∨
      ∃ f, (step A s (.rx tel len)).2 = [.sentControl f] ∧
        IsControlFrame disconnectByte (src tel) f) := by
  rcases step_trans A s (.rx tel len) with ⟨h, _⟩ | h
  · rw [h]; exact ⟨rfl, rfl, rfl, fun _ _ => Or.inl rfl⟩
  · rw [← sender_eq] at hsrc
    generalize (step A s (.rx tel len)).1 = s' at h ⊢
    generalize (step A s (.rx tel len)).2 = o at h ⊢
    cases h with
    | rxIgnored | connectSame | disconnectIgnored | ackIgnored | nakIgnored | dataIgnored =>
      exact ⟨rfl, rfl, rfl, fun _ _ => Or.inl rfl⟩
    | rxBroadcast _ _ hd | rxBroadcastSend _ _ _ hd =>
      refine ⟨rfl, rfl, rfl, fun hu => ?_⟩
      have := ((forUs_iff s tel).mpr hu).nonzero
      exact absurd hd this
    | rxGroup _ _ _ hg | rxGroupSend _ _ _ _ hg =>
      refine ⟨rfl, rfl, rfl, fun hu => ?_⟩
      exact absurd ((forUs_iff s tel).mpr hu).unicast hg
    | connect _ _ _ _ hp => exact absurd hp hopen
    | connectOther =>
      refine ⟨rfl, rfl, rfl, fun _ _ => Or.inr ?_⟩
      obtain ⟨f, hf, hc⟩ := ctrl_disconnect s (senderAddress tel)
      exact ⟨f, by rw [hf], by rw [← sender_eq]; exact hc⟩
    | disconnected _ _ _ _ _ ha => exact absurd ha hsrc
    | ackWrong _ _ _ _ _ _ _ _ ha => exact absurd ha.symm hsrc
    | ackOk _ _ _ _ _ _ _ _ ha => exact absurd ha.symm hsrc
    | nakRepeat _ _ _ _ _ _ _ _ ha => exact absurd ha.symm hsrc
    | nakClose _ _ _ _ _ _ _ _ ha => exact absurd ha.symm hsrc
    | individual _ _ _ hc | individualSend _ _ _ _ hc =>
      refine ⟨rfl, rfl, rfl, fun _ hn => ?_⟩
      have := (connectionless_eq tel).mp hc
      rw [this] at hn; cases hn
    | dataAccepted _ _ _ _ _ ha => exact absurd ha.symm hsrc
    | dataRepeated _ _ _ _ _ ha => exact absurd ha.symm hsrc
    | dataNak _ _ _ _ _ ha => exact absurd ha.symm hsrc

example : demoOpen.phase ≠ .closed ∧
    src (demoTel 0x1101#16 0x1105#16 0x80#8) ≠ demoOpen.connectedAddr ∧
    -- and the T_DISCONNECT branch really occurs
    (step demoApp demoOpen (.rx (demoTel 0x1101#16 0x1105#16 0x80#8) 7)).2.length = 1 := by
  decide +kernel

/-- Things that can happen to the device without the partner doing anything and without a call of
`loop` or `disconnect`: telegrams from others, end of transmissions, sends by other parts of the
device, time. -/
def NotByPartner (partner : Word) : Op → Prop
  | .rx tel _ => src tel ≠ partner
  | .txDone _ | .userSend _ | .setOwnAddress _ | .advance _ => True
  | .loop | .disconnect => False

/-- C01 over histories of any length. -/
theorem C01_intruder_history (A : App σ) (s : State σ) (ops : List Op)
    (hopen : s.phase ≠ .closed) (hops : ∀ op ∈ ops, NotByPartner s.connectedAddr op) :
    connection (run A s ops).1 = connection s ∧ delivered (run A s ops).2 = [] := by
  induction ops generalizing s with
  | nil => exact ⟨rfl, rfl⟩
  | cons op ops ih =>
    have key : connection (step A s op).1 = connection s ∧ delivered (step A s op).2 = [] := by
      have hop := hops op (by simp)
      cases op with
      | rx tel len =>
        have := C01_intruder_step A s tel len hopen hop
        exact ⟨this.1, this.2.1⟩
      | txDone | userSend | setOwnAddress | advance =>
        rcases step_trans A s _ with ⟨h, _⟩ | h
        · rw [h]; exact ⟨rfl, rfl⟩
        · revert h
          generalize (step A s _).1 = s'
          generalize (step A s _).2 = o
          intro h
          cases h <;> exact ⟨rfl, rfl⟩
      | loop | disconnect => exact absurd hop id
    have hconn := key.1
    simp only [connection, Prod.mk.injEq] at hconn
    have := ih (step A s op).1 (by rw [hconn.1]; exact hopen)
      (fun op' h' => by rw [hconn.2.1]; exact hops op' (by simp [h']))
    rw [run_cons]
    refine ⟨by rw [this.1, key.1], ?_⟩
    simp [delivered_append, key.2, this.2]

example : ∀ op ∈ [Op.rx (demoTel 0x1101#16 0x1105#16 0x80#8) 7, .txDone true, .advance 5,
    .rx (demoTel 0x1101#16 0x1105#16 0x81#8) 7], NotByPartner demoOpen.connectedAddr op := by
  intro op h
  simp at h
  rcases h with rfl | rfl | rfl | rfl <;> simp only [NotByPartner] <;> decide +kernel

/-! ## C02 -/

theorem rcv_run (A : App σ) (s : State σ) (ops : List Op) (k : Nat)
    (hk : s.seqNoRcv = ((k % 16 : Nat) : Int)) (h : StaysOpen A s ops) :
    (run A s ops).1.connectedAddr = s.connectedAddr ∧
    (run A s ops).1.seqNoRcv = (((k + (delivered (run A s ops).2).length) % 16 : Nat) : Int) ∧
    ∀ n t, (delivered (run A s ops).2)[n]? = some t →
      seqOf (t 6) = (k + n) % 16 ∧ src t = s.connectedAddr ∧ isControl t = false ∧
        isConnectionless t = false := by
  induction ops generalizing s k with
  | nil => refine ⟨rfl, by simpa [run, delivered] using hk, ?_⟩; simp [run, delivered]
  | cons op ops ih =>
    obtain ⟨h0, hs⟩ := staysOpen_cons A s op ops h
    have h1 : (step A s op).1.phase ≠ .closed := hs 0 (by simp)
    have key : (step A s op).1.connectedAddr = s.connectedAddr ∧
      ((delivered (step A s op).2 = [] ∧ (step A s op).1.seqNoRcv = s.seqNoRcv) ∨
       ∃ tel, delivered (step A s op).2 = [tel] ∧ src tel = s.connectedAddr ∧
        isControl tel = false ∧ isConnectionless tel = false ∧
        (seqOf (tel 6) : Int) = s.seqNoRcv ∧ (step A s op).1.seqNoRcv = (s.seqNoRcv + 1) % 16) := by
      rcases step_trans A s op with ⟨h, _⟩ | h
      · rw [h]; exact ⟨rfl, Or.inl ⟨rfl, rfl⟩⟩
      · obtain ⟨hc, hd | ⟨tel, _, _, h2, _, h3, h4, h5, h6, h7⟩⟩ := rcv_step A s _ op _ h h0 h1
        · exact ⟨hc, Or.inl hd⟩
        · exact ⟨hc, Or.inr ⟨tel, h2, h5, h3, h4, h6, h7⟩⟩
    obtain ⟨hc, ⟨hd, hr⟩ | ⟨tel, hd, hsrc, hb, hb', hq, hr⟩⟩ := key
    · obtain ⟨i1, i2, i3⟩ := ih (step A s op).1 k (by rw [hr, hk]) hs
      rw [run_cons]
      simp only [delivered_append, hd, List.nil_append]
      exact ⟨by rw [i1, hc], i2, by rw [← hc]; exact i3⟩
    · obtain ⟨i1, i2, i3⟩ := ih (step A s op).1 (k + 1) (by rw [hr, hk]; omega) hs
      rw [run_cons]
      simp only [delivered_append, hd]
      refine ⟨by rw [i1, hc], ?_, ?_⟩
      · rw [i2]; simp; omega
      · intro n t hn
        cases n with
        | zero =>
          simp at hn
          subst hn
          exact ⟨by omega, hsrc, hb, hb'⟩
        | succ n =>
          simp at hn
          have := i3 n t hn
          rw [hc] at this
          refine ⟨?_, this.2⟩
          rw [this.1]; congr 1; omega

theorem connect_step (A : App σ) (s : State σ) (c : Buf) (len : Nat) (hcl : s.phase = .closed)
    (hu : UnicastTo s.ownAddr c) (hc : isConnect c = true) :
    step A s (.rx c len) = (a01 s (src c), []) := by
  have hf := (forUs_iff s c).mpr hu
  have hcc := (connect_eq c).mpr hc
  have h80 : (T_CONNECT &&& 0x80#8 = 0#8) ↔ False := by decide
  simp [step, exec, processTelegram, hf.nonzero, hf.unicast, hf.dest ▸ hf.nonzero, hf.dest, hcc,
    h80, conControl, conConnect, hcl, sender_eq]

/-- C02: the n-th numbered telegram handed to the application since the connect telegram `c` carries
sequence number n mod 16 and comes from the partner who connected. -/
theorem C02_in_order (A : App σ) (s : State σ) (c : Buf) (len : Nat) (ops : List Op)
    (hcl : s.phase = .closed) (hu : UnicastTo s.ownAddr c) (hc : isConnect c = true)
    (hopen : StaysOpen A (step A s (.rx c len)).1 ops) (n : Nat) (t : Buf)
    (ht : (delivered (run A (step A s (.rx c len)).1 ops).2)[n]? = some t) :
    seqOf (t 6) = n % 16 ∧ src t = src c ∧ isControl t = false ∧ isConnectionless t = false := by
  rw [connect_step A s c len hcl hu hc] at ht hopen
  have := (rcv_run A (a01 s (src c)) ops 0 rfl hopen).2.2 n t ht
  simpa [a01] using this

/-- C02: what happens to the next numbered telegram of the partner, in terms of the number `k` of
telegrams handed over since the connect. (The send buffer is free: otherwise the reaction is
delayed until it is.) -/
theorem C02_reaction (A : App σ) (s : State σ) (c : Buf) (len : Nat) (ops : List Op)
    (hcl : s.phase = .closed) (hu : UnicastTo s.ownAddr c) (hc : isConnect c = true)
    (hopen : StaysOpen A (step A s (.rx c len)).1 ops)
    (u : State σ) (k : Nat) (hsu : u = (run A (step A s (.rx c len)).1 ops).1)
    (hk : k = (delivered (run A (step A s (.rx c len)).1 ops).2).length)
    (t : Buf) (tlen : Nat) (hfree : u.tx = .free) (htu : UnicastTo u.ownAddr t)
    (hsrc : src t = src c) (hctl : isControl t = false) (hnum : isConnectionless t = false) :
    (seqOf (t 6) = k % 16 →
      delivered (step A u (.rx t tlen)).2 = [t] ∧
      ∃ f, IsControlFrame (ackByte k) (src c) f ∧
        (step A u (.rx t tlen)).2 = [.sentControl f, .apciConnected t tlen]) ∧
    ((seqOf (t 6) + 1) % 16 = k % 16 →
      ∃ f, IsControlFrame (ackByte (seqOf (t 6))) (src c) f ∧
        (step A u (.rx t tlen)).2 = [.sentControl f] ∧
        (step A u (.rx t tlen)).1.app = u.app) ∧
    (seqOf (t 6) ≠ k % 16 → (seqOf (t 6) + 1) % 16 ≠ k % 16 →
      ∃ f, IsControlFrame (nakByte (seqOf (t 6))) (src c) f ∧
        (step A u (.rx t tlen)).2 = [.sentControl f] ∧
        (step A u (.rx t tlen)).1.app = u.app) := by
  have hlast : u.phase ≠ .closed := by
    have := hopen ops.length (Nat.le_refl _)
    rw [List.take_length] at this
    rw [hsu]; exact this
  rw [connect_step A s c len hcl hu hc] at hsu hk hopen
  obtain ⟨hca, hcr, _⟩ := rcv_run A (a01 s (src c)) ops 0 rfl hopen
  rw [← hsu, ← hk] at hcr
  rw [← hsu] at hca
  simp only [Nat.zero_add] at hcr
  have hca : u.connectedAddr = src c := hca
  have hf := (forUs_iff u t).mpr htu
  have hb := (control_eq t).mpr hctl
  have hn : ¬ (t 6 &&& 0xfc#8 = 0#8) := by
    intro h; have := (connectionless_eq t).mp h; rw [this] at hnum; cases hnum
  have hq := seq_eq t (notFF_of_bit7 _ hb)
  have hlt := seqOf_lt (t 6)
  have hdir : exec A u (.rx t tlen) = direct A u t tlen := by
    simp [exec, processTelegram, hf.unicast, hf.dest, tpci_bit7, hb]
    intro h; exact absurd (hf.dest.trans h) hf.nonzero
  have hcond : ¬ (u.connectedAddr ≠ senderAddress t ∨ u.phase = .closed) := by
    rw [sender_eq, hsrc, hca]; simp [hlast]
  refine ⟨fun h => ?_, fun h => ?_, fun h h' => ?_⟩
  · obtain ⟨f, hf1, hf2⟩ := ctrl_ack u (src c) (k % 16) (Nat.mod_lt _ (by omega))
    have e : exec A u (.rx t tlen) = some (a02Process A (ctrlState u T_ACK u.connectedAddr
        ((sequenceNumber t).toNat : Int)) t tlen,
        [.sentControl f, .apciConnected t tlen]) := by
      rw [hdir]; unfold direct
      simp only [hn, if_false, hcond]
      rw [if_pos (by rw [hq, hcr, h])]
      unfold a02
      rw [sendConControl_eq, if_pos hfree]
      simp [hq, h, hca, ← hf1]
    simp only [step, e, Option.getD_some, delivered]
    refine ⟨trivial, f, ?_, rfl⟩
    simpa [ackByte] using hf2
  · obtain ⟨f, hf1, hf2⟩ := ctrl_ack u (src c) (seqOf (t 6)) hlt
    have e : exec A u (.rx t tlen) = some ({ ctrlState u T_ACK u.connectedAddr
        ((sequenceNumber t).toNat : Int) with repeatedAck := u.repeatedAck + 1, connectedTime := millis u },
        [.sentControl f]) := by
      rw [hdir]; unfold direct
      simp only [hn, if_false, hcond]
      rw [if_neg (by rw [hq, hcr]; omega), if_pos (by rw [hq, hcr]; omega)]
      unfold a03
      rw [sendConControl_eq, if_pos hfree]
      simp [hq, hca, ← hf1, ctrlState, millis]
    simp only [step, e, Option.getD_some]
    exact ⟨f, hf2, rfl, rfl⟩
  · obtain ⟨f, hf1, hf2⟩ := ctrl_nak u (src c) (seqOf (t 6)) hlt
    have e : exec A u (.rx t tlen) = some ({ ctrlState u T_NACK u.connectedAddr
        ((sequenceNumber t).toNat : Int) with connectedTime := millis u },
        [.sentControl f]) := by
      rw [hdir]; unfold direct
      simp only [hn, if_false, hcond]
      rw [if_neg (by rw [hq, hcr]; omega), if_neg (by rw [hq, hcr]; omega)]
      unfold a04
      rw [sendConControl_eq, if_pos hfree]
      simp [hq, hca, ← hf1, ctrlState, millis]
    simp only [step, e, Option.getD_some]
    exact ⟨f, hf2, rfl, rfl⟩

/-- Three telegrams of the partner (the second is a repetition of the first), with the
acknowledgements sent in between. -/
def demoOps : List Op :=
  [.rx (demoTel 0x11FE#16 0x1105#16 0x40#8) 8, .txDone true,
   .rx (demoTel 0x11FE#16 0x1105#16 0x40#8) 8, .txDone true,
   .rx (demoTel 0x11FE#16 0x1105#16 0x44#8) 8, .txDone true]

example : demoInit.phase = .closed ∧ UnicastTo demoInit.ownAddr (demoTel 0x11FE#16 0x1105#16 0x80#8) ∧
    isConnect (demoTel 0x11FE#16 0x1105#16 0x80#8) = true ∧
    StaysOpen demoApp demoOpen demoOps ∧
    (delivered (run demoApp demoOpen demoOps).2).length = 2 := by
  refine ⟨by decide, ⟨by decide, by decide, by decide⟩, by decide, ?_, by decide +kernel⟩
  have : ∀ n ≤ 6, (run demoApp demoOpen (demoOps.take n)).1.phase ≠ .closed := by decide +kernel
  exact this

end Verif.TL4
