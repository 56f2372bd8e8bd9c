import Verif.TL4.Progress

/-!
# C110: a dialogue can always go on
-/

namespace Verif.TL4
open Knx Spec
variable {σ : Type}

/-- A dialogue with nothing on its way. -/
def atRest (s : State σ) (c : Nat) (log : List Buf) (got : List (List Byte)) (ex : List (σ × Buf × Nat)) :
    Dialogue σ :=
  { sys := { dev := s, current := c, toDevice := [], toClient := [], log := log }
    fromDevice := [], acks := [], got := got, executed := ex }

/-! ## Everything on its way may get lost -/

theorem drop_requests (A : App σ) (p : Word) (S : Client σ) (l : List Buf) (z : Dialogue σ)
    (h : z.sys.toDevice = l) : DReach A p S z { z with sys := { z.sys with toDevice := [] } } := by
  induction l generalizing z with
  | nil =>
    have : z = { z with sys := { z.sys with toDevice := [] } } := by rw [← h]
    rw [← this]; exact .start
  | cons x b ih =>
    have h1 : DReach A p S z { z with sys := { z.sys with toDevice := b } } :=
      .step _ _ .start (.lose z [] x b h)
    exact h1.trans (ih _ rfl)

theorem drop_acks (A : App σ) (p : Word) (S : Client σ) (l : List Nat) (z : Dialogue σ)
    (h : z.sys.toClient = l) : DReach A p S z { z with sys := { z.sys with toClient := [] } } := by
  induction l generalizing z with
  | nil =>
    have : z = { z with sys := { z.sys with toClient := [] } } := by rw [← h]
    rw [← this]; exact .start
  | cons x b ih =>
    have h1 : DReach A p S z { z with sys := { z.sys with toClient := b } } :=
      .step _ _ .start (.loseAck z [] x b h)
    exact h1.trans (ih _ rfl)

theorem drop_data (A : App σ) (p : Word) (S : Client σ) (l : List (List Byte)) (z : Dialogue σ)
    (h : z.fromDevice = l) : DReach A p S z { z with fromDevice := [] } := by
  induction l generalizing z with
  | nil =>
    have : z = { z with fromDevice := [] } := by rw [← h]
    rw [← this]; exact .start
  | cons x b ih =>
    have h1 : DReach A p S z { z with fromDevice := b } := .step _ _ .start (.loseData z [] x b h)
    exact h1.trans (ih _ rfl)

theorem drop_answerAcks (A : App σ) (p : Word) (S : Client σ) (l : List Buf) (z : Dialogue σ)
    (h : z.acks = l) : DReach A p S z { z with acks := [] } := by
  induction l generalizing z with
  | nil =>
    have : z = { z with acks := [] } := by rw [← h]
    rw [← this]; exact .start
  | cons x b ih =>
    have h1 : DReach A p S z { z with acks := b } := .step _ _ .start (.loseAnswerAck z [] x b h)
    exact h1.trans (ih _ rfl)

theorem drop_all (A : App σ) (p : Word) (S : Client σ) (z : Dialogue σ) :
    DReach A p S z (atRest z.sys.dev z.sys.current z.sys.log z.got z.executed) :=
  (((drop_requests A p S _ z rfl).trans (drop_acks A p S _ _ rfl)).trans (drop_data A p S _ _ rfl)).trans
    (drop_answerAcks A p S _ _ rfl)

/-! ## Parts of a round -/

/-- The end of a transmission. -/
theorem rest_sent (A : App σ) (p : Word) (S : Client σ) (s : State σ) (c : Nat) (log : List Buf)
    (got : List (List Byte)) (ex : List (σ × Buf × Nat)) (htx : s.tx ≠ .acquired) :
    ∃ n, Calm A p S (atRest s c log got ex) (atRest { s with tx := .free, conCtrlRep := n } c log got ex) := by
  by_cases h : s.tx = .free
  · refine ⟨s.conCtrlRep, ?_⟩
    rw [← h]; exact .start
  · have h : s.tx = .sending := by cases hh : s.tx <;> simp_all
    obtain ⟨n, hn⟩ := fwd_txDone A s h
    refine ⟨n, .one ?_⟩
    have := CalmStep.transmitted (A := A) (p := p) (S := S) (atRest s c log got ex)
    simpa [Dialogue.device, Sys.device, atRest, hn, acksIn, dataIn, delivered] using this

/-- A new request: transmitted, executed, acknowledged. -/
theorem rest_request (A : App σ) (p d : Word) (S : Client σ) (hreq : Requests p d S.req) (s : State σ) (c : Nat)
    (log : List Buf) (got : List (List Byte)) (ex : List (σ × Buf × Nat)) (len : Nat)
    (hown : s.ownAddr = d) (hp : s.phase ≠ .closed) (ha : s.connectedAddr = p)
    (hs : s.seqNoRcv = ((c % 16 : Nat) : Int)) (htx : s.tx = .free)
    (hg : answersBefore S.req S.expects c ≤ got.length) (hl : S.lens (S.req c) len) :
    Calm A p S (atRest s c log got ex)
      (atRest (a02Process A (ctrlState s T_ACK p ((c % 16 : Nat) : Int)) (S.req c) len) (c + 1)
        (log ++ [S.req c]) got (ex ++ [(s.app, S.req c, len)])) := by
  have hu : UnicastTo s.ownAddr (S.req c) := by
    rw [hown]; exact ⟨hreq.unicast c, hreq.dst c, hreq.dest⟩
  have hst := fwd_accept A s (S.req c) len hu (hreq.numbered c) (by rw [ha, hreq.src]) hp
    (by rw [hreq.seq, hs]) htx
  rw [hreq.seq, ha] at hst
  have hak := (acksIn_ack p s (c % 16) (by omega) (S.req c) len).2
  have hda := dataIn_ctrl p s T_ACK p ((c % 16 : Nat) : Int) (by decide)
  have hda' : dataIn p [ctrlOut s T_ACK p ((c % 16 : Nat) : Int), .apciConnected (S.req c) len] = [] := by
    simpa [dataIn, frameOf] using hda
  have e : delivered [ctrlOut s T_ACK p ((c % 16 : Nat) : Int), .apciConnected (S.req c) len] = [S.req c] := rfl
  obtain ⟨k, hk⟩ : ∃ k : Int, ((c % 16 : Nat) : Int) = k := ⟨_, rfl⟩
  rw [hk] at hst hak hda' e ⊢
  have h1 : Calm A p S (atRest s c log got ex) _ := .one (.clientSend _ hg)
  have h2 := Calm.step _ _ h1 (.receive _ (S.req c) [] len rfl hl)
  have h3 := Calm.step _ _ h2 (.clientAck _ (c % 16) [] (by
    simp [Dialogue.device, Sys.device, atRest, hst, hak]))
  simpa [Dialogue.device, Sys.device, atRest, hst, hda', e] using h3

/-- A request that is executed but not acknowledged is acknowledged when it is repeated. -/
theorem rest_again (A : App σ) (p d : Word) (S : Client σ) (hreq : Requests p d S.req) (s : State σ) (c : Nat)
    (log : List Buf) (got : List (List Byte)) (ex : List (σ × Buf × Nat)) (len : Nat)
    (hown : s.ownAddr = d) (hp : s.phase ≠ .closed) (ha : s.connectedAddr = p)
    (hs : s.seqNoRcv = (((c + 1) % 16 : Nat) : Int)) (htx : s.tx = .free)
    (hg : answersBefore S.req S.expects c ≤ got.length) (hl : S.lens (S.req c) len) :
    Calm A p S (atRest s c log got ex)
      (atRest { ctrlState s T_ACK p ((c % 16 : Nat) : Int) with
          repeatedAck := s.repeatedAck + 1, connectedTime := millis s } (c + 1) log got ex) := by
  have hu : UnicastTo s.ownAddr (S.req c) := by
    rw [hown]; exact ⟨hreq.unicast c, hreq.dst c, hreq.dest⟩
  have hst := fwd_again A s (S.req c) len hu (hreq.numbered c) (by rw [ha, hreq.src]) hp
    (by rw [hreq.seq, hs]; omega) (by rw [hreq.seq, hs]; omega) htx
  rw [hreq.seq, ha] at hst
  have hak := (acksIn_ack p s (c % 16) (by omega) (S.req c) len).1
  have hda := dataIn_ctrl p s T_ACK p ((c % 16 : Nat) : Int) (by decide)
  have e : delivered [ctrlOut s T_ACK p ((c % 16 : Nat) : Int)] = [] := rfl
  obtain ⟨k, hk⟩ : ∃ k : Int, ((c % 16 : Nat) : Int) = k := ⟨_, rfl⟩
  rw [hk] at hst hak hda e ⊢
  have h1 : Calm A p S (atRest s c log got ex) _ := .one (.clientSend _ hg)
  have h2 := Calm.step _ _ h1 (.receive _ (S.req c) [] len rfl hl)
  have h3 := Calm.step _ _ h2 (.clientAck _ (c % 16) [] (by
    simp [Dialogue.device, Sys.device, atRest, hst, hak]))
  simpa [Dialogue.device, Sys.device, atRest, hst, hda, e] using h3

/-- The client takes the answer on its way if it is the next one. -/
def taking (got : List (List Byte)) (f : List Byte) : List (List Byte) :=
  if numberIn f = got.length % 16 then got ++ [f] else got

/-- The waiting answer is transmitted. -/
theorem rest_answer (A : App σ) (p : Word) (S : Client σ) (s : State σ) (c : Nat)
    (log : List Buf) (got : List (List Byte)) (ex : List (σ × Buf × Nat)) (q : List (σ × Buf × Nat)) (m : Nat)
    (hen : s.enabled = true) (htx : s.tx = .free)
    (hp : s.phase = .openIdle) (hc : s.con1 = .acquired) (ht : (elapsed s s.connectedTime).toNat < 6000)
    (hb : s.conBuf1 6 &&& 0x80#8 = 0#8) (ha : Ans A p q m (bytes s.conBuf1 (telegramSize s.conBuf1))) :
    Calm A p S (atRest s c log got ex)
      (atRest (firstSendState s) c log (taking got (bytes s.conBuf1 (telegramSize s.conBuf1))) ex) := by
  have hst := fwd_loopSend A s hen htx hp hc ht
  have hak := acksIn_data p s hb
  have hda := dataIn_ans s ha
  have e : delivered [dataOut s] = [] := rfl
  have h1 : Calm A p S (atRest s c log got ex) _ := .one (.loop _)
  have h2 := Calm.step _ _ h1 (.clientData _ (bytes s.conBuf1 (telegramSize s.conBuf1)) [] (by
    simp [Dialogue.device, Sys.device, atRest, hst, hda]))
  simpa [Dialogue.device, Sys.device, atRest, hst, hda, hak, e, taking] using h2

/-- An answer that was lost is repeated after three seconds. -/
theorem rest_repeat (A : App σ) (p : Word) (S : Client σ) (s : State σ) (c : Nat)
    (log : List Buf) (got : List (List Byte)) (ex : List (σ × Buf × Nat)) (q : List (σ × Buf × Nat)) (m : Nat)
    (hen : s.enabled = true) (htx : s.tx = .free)
    (hp : s.phase = .openWait) (hr : s.repCount < 3) (ht : (elapsed s s.connectedTime).toNat < 3000)
    (hb : s.conBuf1 6 &&& 0x80#8 = 0#8) (ha : Ans A p q m (bytes s.conBuf1 (telegramSize s.conBuf1))) :
    ∃ s1 : State σ, s1.conBuf1 = s.conBuf1 ∧ s1.con1 = s.con1 ∧ s1.con2 = s.con2 ∧ s1.conBuf2 = s.conBuf2 ∧
      s1.phase = .openWait ∧ s1.ownAddr = s.ownAddr ∧ s1.enabled = true ∧
      s1.seqNoSend = s.seqNoSend ∧
    DReach A p S (atRest s c log got ex)
      (atRest s1 c log (taking got (bytes s.conBuf1 (telegramSize s.conBuf1))) ex) := by
  obtain ⟨w, hw⟩ : ∃ w, w = 3000 - (elapsed s s.sentTime).toNat := ⟨_, rfl⟩
  let s0 : State σ := { s with clock := s.clock + w }
  have e1 : (elapsed s0 s.connectedTime).toNat < 6000 := by
    show (BitVec.ofNat 32 (s.clock + w) - s.connectedTime).toNat < 6000
    have : BitVec.ofNat 32 (s.clock + w) - s.connectedTime = elapsed s s.connectedTime + BitVec.ofNat 32 w := by
      unfold elapsed millis
      rw [BitVec.ofNat_add]
      simp only [BitVec.sub_eq_add_neg]
      ac_rfl
    rw [this, BitVec.toNat_add, BitVec.toNat_ofNat]
    omega
  have e2 : 3000 ≤ (elapsed s0 s.sentTime).toNat := by
    show 3000 ≤ (BitVec.ofNat 32 (s.clock + w) - s.sentTime).toNat
    have : BitVec.ofNat 32 (s.clock + w) - s.sentTime = elapsed s s.sentTime + BitVec.ofNat 32 w := by
      unfold elapsed millis
      rw [BitVec.ofNat_add]
      simp only [BitVec.sub_eq_add_neg]
      ac_rfl
    have hlt := (elapsed s s.sentTime).isLt
    rw [this, BitVec.toNat_add, BitVec.toNat_ofNat]
    omega
  have hst := fwd_loopRepeat A s0 hen htx hp e1 e2 hr
  have hak := acksIn_data p s0 hb
  have hda := dataIn_ans s0 ha
  have e : delivered [dataOut s0] = [] := rfl
  have hadv : step A s (.advance w) = (s0, []) := rfl
  have h1 : DReach A p S (atRest s c log got ex) _ :=
    .step _ _ .start (.other _ (.advance w) (foreignD_quiet _ _ _ _ _ (by simp)))
  have h1' : DReach A p S (atRest s c log got ex) (atRest s0 c log got ex) := by
    simpa [Dialogue.device, Sys.device, atRest, hadv, acksIn, dataIn, delivered] using h1
  have h2 : Calm A p S (atRest s0 c log got ex) _ := .one (.loop _)
  have h3 := Calm.step _ _ h2 (.clientData _ (bytes s.conBuf1 (telegramSize s.conBuf1)) [] (by
    simp [Dialogue.device, Sys.device, atRest, hst, hda, s0]))
  refine ⟨repeatState s0, rfl, rfl, rfl, rfl, hp, rfl, hen, rfl, h1'.trans ?_⟩
  have h3 := h3.reach
  simpa [Dialogue.device, Sys.device, atRest, hst, hda, hak, e, taking] using h3

/-- The client acknowledges the last answer. -/
theorem rest_acked (A : App σ) (p d : Word) (S : Client σ) (hack : Acks p S.ack)
    (hd : ∀ k, UnicastTo d (S.ack k)) (s : State σ) (c : Nat)
    (log : List Buf) (got : List (List Byte)) (ex : List (σ × Buf × Nat))
    (hown : s.ownAddr = d) (hp : s.phase = .openWait) (ha : s.connectedAddr = p) (hne : got ≠ [])
    (hs : s.seqNoSend = (((got.length - 1) % 16 : Nat) : Int)) :
    Calm A p S (atRest s c log got ex) (atRest { a08 s with phase := .openIdle } c log got ex) := by
  have hst := fwd_acked A s (S.ack (got.length - 1)) 7 (by rw [hown]; exact hd _) (hack.isAck _)
    (by rw [ha, hack.src]) hp (by rw [hack.seq, hs])
  have h1 : Calm A p S (atRest s c log got ex) _ := .one (.answerAck _ hne)
  have h2 := Calm.step _ _ h1 (.receiveAck _ (S.ack (got.length - 1)) [] 7 rfl)
  simpa [Dialogue.device, Sys.device, atRest, hst, acksIn, dataIn, delivered] using h2

/-! ## Invariants -/

/-- Some choice of the ghost variables fits. -/
def Good (A : App σ) (p : Word) (S : Client σ) (z : Dialogue σ) : Prop := ∃ r m fs ks, DOk A p S z r m fs ks

/-- What is assumed about the application and the client. -/
structure Fits (A : App σ) (p d : Word) (S : Client σ) : Prop where
  plain : AppPlain A
  req : Requests p d S.req
  ack : Acks p S.ack
  ackTo : ∀ k, UnicastTo d (S.ack k)
  expected : Expected A S

theorem good_reach {A : App σ} {p d : Word} {S : Client σ} (hF : Fits A p d S) {z z' : Dialogue σ}
    (h : Good A p S z) (hr : DReach A p S z z') : Good A p S z' := by
  induction hr with
  | start => exact h
  | step y y' _ hst ih =>
    obtain ⟨r, m, fs, ks, h⟩ := ih
    exact dOk_step A hF.plain p d S hF.req hF.ack hF.expected y y' r m fs ks h hst

theorem start_good {A : App σ} {p : Word} {S : Client σ} (s : State σ) (hs : Reachable A s)
    (hcl : s.phase = .closed) (hfree : s.tx = .free) (hkn : S.known 0 s.app) (c : Buf) (len : Nat)
    (hu : UnicastTo s.ownAddr c) (hc : isConnect c = true) (hsrc : src c = p) :
    Good A p S (atRest (step A s (.rx c len)).1 0 [] [] []) := by
  have hinv := inv_step A s (.rx c len) (inv_reachable A s hs)
  rw [connect_step A s c len hcl hu hc] at hinv ⊢
  refine ⟨0, 0, [], [], ⟨[], [], ?_⟩, rfl, ?_, ?_, by simp [atRest, answered], by simp, by simp [atRest],
    by simp [atRest], by simp [atRest],
    rfl, List.Pairwise.nil, by simp, rfl, List.Pairwise.nil, by simp, hkn, by simp [atRest]⟩
  · constructor
    · exact hinv
    · refine ⟨fun _ => ⟨hsrc, rfl⟩, fun h => absurd rfl h, fun h => absurd rfl h, fun h => ?_, fun h => by cases h⟩
      have : s.tx = .sending := h
      rw [hfree] at this; cases this
    all_goals simp [atRest]
  · intro t ht; cases ht
  · exact ⟨fun _ => ⟨hsrc, rfl⟩, fun _ _ => rfl, fun _ h => absurd rfl h, fun _ h => absurd rfl h,
      fun h => absurd rfl h, fun h => absurd rfl h⟩

theorem step_enabled (A : App σ) (s : State σ) (op : Op) : (step A s op).1.enabled = s.enabled := by
  rcases step_trans A s op with ⟨e, _⟩ | ht
  · rw [e]
  · revert ht
    generalize (step A s op).1 = s'
    generalize (step A s op).2 = o
    intro ht
    cases ht with
    | ackOk => simp only [a08]; split <;> rfl
    | dataAccepted =>
      simp only [a02Process]
      split <;> split <;> rfl
    | _ => rfl

theorem reachable_enabled (A : App σ) (s : State σ) (h : Reachable A s) : s.enabled = true := by
  obtain ⟨own, clock, app, ops, rfl⟩ := h
  have : ∀ (ops : List Op) (t : State σ), (run A t ops).1.enabled = t.enabled := by
    intro ops
    induction ops with
    | nil => intro t; rfl
    | cons op ops ih =>
      intro t
      rw [run_cons]
      show (run A (step A t op).1 ops).1.enabled = _
      rw [ih, step_enabled]
  rw [this]; rfl

theorem reach_enabled {A : App σ} {p : Word} {S : Client σ} {z z' : Dialogue σ} (h : DReach A p S z z') :
    z'.sys.dev.enabled = z.sys.dev.enabled := by
  induction h with
  | start => rfl
  | step y y' _ hst ih =>
    rw [← ih]
    cases hst with
    | receive | receiveAck | other => exact step_enabled A _ _
    | _ => rfl

/-- What is known about a dialogue with nothing on its way: `m` answers are acknowledged. -/
structure RestFacts (A : App σ) (p : Word) (S : Client σ) (s : State σ) (c : Nat) (got : List (List Byte))
    (ex : List (σ × Buf × Nat)) (m : Nat) : Prop where
  inv : Inv s
  partner : s.phase ≠ .closed → s.connectedAddr = p
  rcv : s.phase ≠ .closed → s.seqNoRcv = ((ex.length % 16 : Nat) : Int)
  send : s.phase ≠ .closed → s.seqNoSend = ((m % 16 : Nat) : Int)
  zero : s.phase ≠ .closed → s.con1 = .free → answersBefore S.req S.expects ex.length = m
  one : s.phase ≠ .closed → s.con1 ≠ .free → s.con2 = .free → answersBefore S.req S.expects ex.length = m + 1
  two : s.phase ≠ .closed → s.con2 ≠ .free → answersBefore S.req S.expects ex.length = m + 2
  ans : s.con1 ≠ .free → Ans A p (answered S.expects ex) m (bytes s.conBuf1 (telegramSize s.conBuf1))
  bit : s.con1 ≠ .free → s.conBuf1 6 &&& 0x80#8 = 0#8
  low : c ≤ ex.length
  high : ex.length ≤ c + 1
  out : answersBefore S.req S.expects ex.length ≤ got.length + 1
  gotLow : m ≤ got.length
  gotHigh : got.length ≤ m + 1
  gotAll : got.length ≤ answersBefore S.req S.expects ex.length
  reqs : ex.map (fun e => e.2.1) = (List.range ex.length).map S.req
  hist : ∀ i e, ex[i]? = some e → S.known i e.1 ∧ S.lens e.2.1 e.2.2

theorem rest_facts {A : App σ} {p : Word} {S : Client σ} {s : State σ} {c : Nat} {log : List Buf}
    {got : List (List Byte)} {ex : List (σ × Buf × Nat)} (h : Good A p S (atRest s c log got ex)) :
    ∃ m, RestFacts A p S s c got ex m := by
  obtain ⟨r, m, fs, ks, h⟩ := h
  obtain ⟨is, as, hs⟩ := h.sys
  have hmap : ex.map (fun e => e.2.1) = (List.range r).map S.req := by
    have := h.exec
    rw [hs.log] at this
    exact this
  have hr : ex.length = r := by
    have := congrArg List.length hmap
    simpa using this
  subst hr
  have hn : (answered S.expects ex).length = answersBefore S.req S.expects ex.length :=
    answered_length S.req S.expects ex _ hmap
  have hd := h.dev
  have hout := h.out
  have hq := h.gotQ
  simp only [atRest] at hd hout hq
  rw [hn] at hd hout hq
  exact ⟨m, hs.inv, fun hp => (hd.num hp).1, fun hp => (hs.dev.rcv hp).2, fun hp => (hd.num hp).2, hd.none,
    hd.one, hd.two, hd.b1, hs.dev.buf1, hs.low, hs.high, hout, h.low, h.high, hq, hmap, h.hist⟩

/-! ## Finishing a round -/

/-- Nothing to send: only the transmission has to end. -/
theorem finish_idle {A : App σ} {p d : Word} {S : Client σ} (hF : Fits A p d S) (s : State σ) (c : Nat)
    (log : List Buf) (got : List (List Byte)) (ex : List (σ × Buf × Nat))
    (hg : Good A p S (atRest s c log got ex)) (hc : ex.length = c) (hown : s.ownAddr = d)
    (hp : s.phase = .openIdle) (h1 : s.con1 = .free) :
    ∃ z, Calm A p S (atRest s c log got ex) z ∧ Settled S d z ∧ z.sys.current = c ∧ z.executed = ex := by
  obtain ⟨m, F⟩ := rest_facts hg
  obtain ⟨n, hn⟩ := rest_sent A p S s c log got ex F.inv.tx
  have hop : s.phase ≠ .closed := by rw [hp]; simp
  refine ⟨_, hn, ⟨hp, h1, F.inv.order h1, rfl, hown, rfl, rfl, rfl, rfl, hc, ?_⟩, rfl, rfl⟩
  show got.length = answersBefore S.req S.expects c
  have a := F.zero hop h1
  have b := F.gotLow
  have e := F.gotAll
  rw [hc] at a e
  omega

theorem a08_cases (s : State σ) (t : State σ) (ht : t = { a08 s with phase := .openIdle }) :
    t.phase = .openIdle ∧ t.ownAddr = s.ownAddr ∧ t.enabled = s.enabled ∧ t.con2 = .free ∧
    t.con1 = s.con2 ∧ (elapsed t t.connectedTime).toNat = 0 := by
  subst ht
  unfold a08
  by_cases h : s.con2 = .free <;> simp [h, elapsed, millis]

theorem firstSend_cases (s : State σ) : (firstSendState s).phase = .openWait ∧
    (firstSendState s).ownAddr = s.ownAddr ∧ (firstSendState s).enabled = s.enabled ∧
    (firstSendState s).con2 = s.con2 ∧ (firstSendState s).seqNoSend = s.seqNoSend ∧
    (firstSendState s).connectedAddr = s.connectedAddr := ⟨rfl, rfl, rfl, rfl, rfl, rfl⟩

/-- The last answer of the device has been taken: the acknowledgement ends the round. -/
theorem finish_taken0 {A : App σ} {p d : Word} {S : Client σ} (hF : Fits A p d S) (s : State σ) (c : Nat)
    (log : List Buf) (got : List (List Byte)) (ex : List (σ × Buf × Nat))
    (hg : Good A p S (atRest s c log got ex)) (hc : ex.length = c) (hown : s.ownAddr = d)
    (hp : s.phase = .openWait) (h2 : s.con2 = .free) (hne : got ≠ [])
    (hs : s.seqNoSend = (((got.length - 1) % 16 : Nat) : Int)) :
    ∃ z, Calm A p S (atRest s c log got ex) z ∧ Settled S d z ∧ z.sys.current = c ∧ z.executed = ex := by
  obtain ⟨m, F⟩ := rest_facts hg
  have ha := F.partner (by rw [hp]; simp)
  have hcalm := rest_acked A p d S hF.ack hF.ackTo s c log got ex hown hp ha hne hs
  obtain ⟨t, ht⟩ : ∃ t, t = ({ a08 s with phase := .openIdle } : State σ) := ⟨_, rfl⟩
  obtain ⟨k1, k2, k3, k4, k5, k6⟩ := a08_cases s t ht
  rw [← ht] at hcalm
  obtain ⟨z, hz, hset, hcur⟩ := finish_idle hF t c log got ex (good_reach hF hg hcalm.reach) hc (k2.trans hown) k1
    (k5.trans h2)
  exact ⟨z, hcalm.trans hz, hset, hcur⟩

/-- An answer waits to be transmitted; another one may be waiting behind it. -/
theorem answer_taken {A : App σ} {p d : Word} {S : Client σ} (s : State σ) (c : Nat)
    (log : List Buf) (got : List (List Byte)) (ex : List (σ × Buf × Nat))
    (hg : Good A p S (atRest s c log got ex)) (hown : s.ownAddr = d) (hen : s.enabled = true)
    (hp : s.phase = .openIdle) (h1 : s.con1 = .acquired) (ht : (elapsed s s.connectedTime).toNat < 6000) :
    ∃ (t : State σ) (got' : List (List Byte)), Calm A p S (atRest s c log got ex) (atRest t c log got' ex) ∧
      t.ownAddr = d ∧ t.enabled = true ∧ t.phase = .openWait ∧ t.con2 = s.con2 ∧ got' ≠ [] ∧
      t.seqNoSend = (((got'.length - 1) % 16 : Nat) : Int) := by
  obtain ⟨m, F⟩ := rest_facts hg
  have hop : s.phase ≠ .closed := by rw [hp]; simp
  have h1' : s.con1 ≠ .free := by rw [h1]; simp
  obtain ⟨n, hn⟩ := rest_sent A p S s c log got ex F.inv.tx
  obtain ⟨t0, ht0⟩ : ∃ t : State σ, t = { s with tx := .free, conCtrlRep := n } := ⟨_, rfl⟩
  rw [← ht0] at hn
  have e1 : t0.conBuf1 = s.conBuf1 := by rw [ht0]
  have hcalm := rest_answer A p S t0 c log got ex (answered S.expects ex) m (by rw [ht0]; exact hen) (by rw [ht0])
    (by rw [ht0]; exact hp) (by rw [ht0]; exact h1) (by rw [ht0]; exact ht) (by rw [e1]; exact F.bit h1')
    (by rw [e1]; exact F.ans h1')
  rw [e1] at hcalm
  obtain ⟨k1, k2, k3, k4, k5, k6⟩ := firstSend_cases t0
  have hnum := number_of_ans (F.ans h1')
  have a := F.gotLow
  have b := F.gotHigh
  have hlen : (taking got (bytes s.conBuf1 (telegramSize s.conBuf1))).length = m + 1 := by
    unfold taking
    rw [hnum]
    by_cases hh : m % 16 = got.length % 16
    · rw [if_pos hh, List.length_append]; simp; omega
    · rw [if_neg hh]
      have : m ≠ got.length := fun h => hh (by rw [h])
      omega
  refine ⟨firstSendState t0, _, hn.trans hcalm, ?_, ?_, k1, ?_, ?_, ?_⟩
  · rw [k2, ht0]; exact hown
  · rw [k3, ht0]; exact hen
  · rw [k4, ht0]
  · intro h0; rw [h0] at hlen; simp at hlen
  · rw [k5, hlen, ht0]
    exact F.send hop

theorem finish_waiting0 {A : App σ} {p d : Word} {S : Client σ} (hF : Fits A p d S) (s : State σ) (c : Nat)
    (log : List Buf) (got : List (List Byte)) (ex : List (σ × Buf × Nat))
    (hg : Good A p S (atRest s c log got ex)) (hc : ex.length = c) (hown : s.ownAddr = d) (hen : s.enabled = true)
    (hp : s.phase = .openIdle) (h1 : s.con1 = .acquired) (h2 : s.con2 = .free)
    (ht : (elapsed s s.connectedTime).toNat < 6000) :
    ∃ z, Calm A p S (atRest s c log got ex) z ∧ Settled S d z ∧ z.sys.current = c ∧ z.executed = ex := by
  obtain ⟨t, got', hcalm, k1, k2, k3, k4, k5, k6⟩ := answer_taken s c log got ex hg hown hen hp h1 ht
  obtain ⟨z, hz, hh⟩ := finish_taken0 hF t c log got' ex (good_reach hF hg hcalm.reach) hc k1 k3 (k4.trans h2) k5 k6
  exact ⟨z, hcalm.trans hz, hh⟩

theorem finish_taken {A : App σ} {p d : Word} {S : Client σ} (hF : Fits A p d S) (s : State σ) (c : Nat)
    (log : List Buf) (got : List (List Byte)) (ex : List (σ × Buf × Nat))
    (hg : Good A p S (atRest s c log got ex)) (hc : ex.length = c) (hown : s.ownAddr = d) (hen : s.enabled = true)
    (hp : s.phase = .openWait) (hne : got ≠ [])
    (hs : s.seqNoSend = (((got.length - 1) % 16 : Nat) : Int)) :
    ∃ z, Calm A p S (atRest s c log got ex) z ∧ Settled S d z ∧ z.sys.current = c ∧ z.executed = ex := by
  by_cases h2 : s.con2 = .free
  · exact finish_taken0 hF s c log got ex hg hc hown hp h2 hne hs
  · obtain ⟨m, F⟩ := rest_facts hg
    have ha := F.partner (by rw [hp]; simp)
    have hcalm := rest_acked A p d S hF.ack hF.ackTo s c log got ex hown hp ha hne hs
    obtain ⟨t, ht⟩ : ∃ t, t = ({ a08 s with phase := .openIdle } : State σ) := ⟨_, rfl⟩
    obtain ⟨k1, k2, k3, k4, k5, k6⟩ := a08_cases s t ht
    rw [← ht] at hcalm
    have h2' : s.con2 = .acquired := by
      have := F.inv.c2
      cases hh : s.con2 <;> simp_all
    obtain ⟨z, hz, hh⟩ := finish_waiting0 hF t c log got ex (good_reach hF hg hcalm.reach) hc (k2.trans hown)
      (k3.trans hen) k1 (k5.trans h2') k4 (by omega)
    exact ⟨z, hcalm.trans hz, hh⟩

theorem finish_waiting {A : App σ} {p d : Word} {S : Client σ} (hF : Fits A p d S) (s : State σ) (c : Nat)
    (log : List Buf) (got : List (List Byte)) (ex : List (σ × Buf × Nat))
    (hg : Good A p S (atRest s c log got ex)) (hc : ex.length = c) (hown : s.ownAddr = d) (hen : s.enabled = true)
    (hp : s.phase = .openIdle) (h1 : s.con1 = .acquired)
    (ht : (elapsed s s.connectedTime).toNat < 6000) :
    ∃ z, Calm A p S (atRest s c log got ex) z ∧ Settled S d z ∧ z.sys.current = c ∧ z.executed = ex := by
  obtain ⟨t, got', hcalm, k1, k2, k3, k4, k5, k6⟩ := answer_taken s c log got ex hg hown hen hp h1 ht
  obtain ⟨z, hz, hh⟩ := finish_taken hF t c log got' ex (good_reach hF hg hcalm.reach) hc k1 k2 k3 k5 k6
  exact ⟨z, hcalm.trans hz, hh⟩

/-- What executing a request leaves in an idle connection. -/
theorem accepted_cases (A : App σ) (s : State σ) (p : Word) (k : Int) (tel : Buf) (len : Nat)
    (t : State σ) (ht : t = a02Process A (ctrlState s T_ACK p k) tel len) (h1 : s.con1 = .free) :
    t.phase = s.phase ∧ t.ownAddr = s.ownAddr ∧ t.enabled = s.enabled ∧ t.con2 = s.con2 ∧
    (t.con1 = .free ∨ t.con1 = .acquired) ∧ (elapsed t t.connectedTime).toNat = 0 := by
  subst ht
  have e : (ctrlState s T_ACK p k).con1 = .free := h1
  unfold a02Process
  dsimp only
  rw [if_pos e]
  by_cases h : (A.processApci (ctrlState s T_ACK p k).app tel len (ctrlState s T_ACK p k).conBuf1).2.2 = true
  · rw [if_pos h]
    exact ⟨rfl, rfl, rfl, rfl, Or.inr rfl, elapsed_self (ctrlState s T_ACK p k)⟩
  · rw [if_neg h]
    exact ⟨rfl, rfl, rfl, rfl, Or.inl rfl, elapsed_self (ctrlState s T_ACK p k)⟩

theorem settled_atRest {S : Client σ} {d : Word} {z : Dialogue σ} (h : Settled S d z) :
    z = atRest z.sys.dev z.sys.current z.sys.log z.got z.executed := by
  have h1 := h.toDevice
  have h2 := h.toClient
  have h3 := h.fromDevice
  have h4 := h.acks
  obtain ⟨⟨dev, cur, tod, toc, log⟩, fr, ak, got, ex⟩ := z
  simp only at h1 h2 h3 h4
  subst h1; subst h2; subst h3; subst h4
  rfl

/-- One undisturbed round. -/
theorem calm_round {A : App σ} {p d : Word} {S : Client σ} (hF : Fits A p d S) (z : Dialogue σ)
    (hg : Good A p S z) (hz : Settled S d z) (hen : z.sys.dev.enabled = true) (len : Nat)
    (hl : S.lens (S.req z.sys.current) len) :
    ∃ z', Calm A p S z z' ∧ Settled S d z' ∧ z'.sys.current = z.sys.current + 1 ∧
      z'.executed = z.executed ++ [(z.sys.dev.app, S.req z.sys.current, len)] := by
  have he := settled_atRest hz
  rw [he] at hg
  obtain ⟨m, F⟩ := rest_facts hg
  have hop : z.sys.dev.phase ≠ .closed := by rw [hz.idle]; simp
  have hcalm := rest_request A p d S hF.req z.sys.dev z.sys.current z.sys.log z.got z.executed len hz.own hop
    (F.partner hop) (by rw [F.rcv hop, hz.executed]) hz.tx (by rw [hz.answered]; exact Nat.le_refl _) hl
  obtain ⟨t, ht⟩ : ∃ t, t = a02Process A (ctrlState z.sys.dev T_ACK p ((z.sys.current % 16 : Nat) : Int))
    (S.req z.sys.current) len := ⟨_, rfl⟩
  obtain ⟨k1, k2, k3, k4, k5, k6⟩ := accepted_cases A z.sys.dev p _ _ len t ht hz.con1
  rw [← ht] at hcalm
  have hg' := good_reach hF hg hcalm.reach
  have hlen : (z.executed ++ [(z.sys.dev.app, S.req z.sys.current, len)]).length = z.sys.current + 1 := by
    rw [List.length_append, hz.executed]; rfl
  rcases k5 with k5 | k5
  · obtain ⟨z', h1, h2, h3, h4⟩ := finish_idle hF t _ _ _ _ hg' hlen (k2.trans hz.own) (k1.trans hz.idle) k5
    rw [← he] at hcalm
    exact ⟨z', hcalm.trans h1, h2, h3, h4⟩
  · obtain ⟨z', h1, h2, h3, h4⟩ := finish_waiting0 hF t _ _ _ _ hg' hlen (k2.trans hz.own) (k3.trans hen)
      (k1.trans hz.idle) k5 (k4.trans hz.con2) (by omega)
    rw [← he] at hcalm
    exact ⟨z', hcalm.trans h1, h2, h3, h4⟩

theorem calm_rounds {A : App σ} {p d : Word} {S : Client σ} (hF : Fits A p d S)
    (hl : ∀ i, ∃ len, S.lens (S.req i) len) (n : Nat) (z : Dialogue σ)
    (hg : Good A p S z) (hz : Settled S d z) (hen : z.sys.dev.enabled = true) :
    ∃ z', Calm A p S z z' ∧ Settled S d z' ∧ z'.sys.current = z.sys.current + n := by
  induction n with
  | zero => exact ⟨z, .start, hz, rfl⟩
  | succ n ih =>
    obtain ⟨y, h1, h2, h3⟩ := ih
    obtain ⟨len, hlen⟩ := hl y.sys.current
    obtain ⟨z', k1, k2, k3, _⟩ := calm_round hF y (good_reach hF hg h1.reach) h2
      ((reach_enabled h1.reach).trans hen) len hlen
    exact ⟨z', h1.trans k1, k2, by omega⟩

/-! ## From any state -/

/-- A step executes a request only after the answers to all requests before have been taken. -/
theorem executed_step {A : App σ} {p d : Word} {S : Client σ} (hF : Fits A p d S) {z z' : Dialogue σ}
    (hg : Good A p S z) (hst : DStep A p S z z') :
    z.got.length ≤ z'.got.length ∧ (z'.executed.length = z.executed.length ∨
      (z'.executed.length = z.executed.length + 1 ∧
        answersBefore S.req S.expects z.executed.length ≤ z.got.length)) := by
  obtain ⟨r, m, fs, ks, h⟩ := hg
  obtain ⟨is, as, hs⟩ := h.sys
  have hr : z.executed.length = r := by
    have := congrArg List.length h.exec
    rw [hs.log] at this
    simpa using this
  -- a telegram that is not a numbered data telegram of the client is not executed
  have quiet : ∀ op, (∀ t l, op = .rx t l → UnicastTo z.sys.dev.ownAddr t → isControl t = false →
      isConnectionless t = false → src t ≠ p) → delivered (step A z.sys.dev op).2 = [] := by
    intro op hop
    rcases step_trans A z.sys.dev op with ⟨e, _⟩ | ht
    · rw [e]; rfl
    · revert ht
      generalize (step A z.sys.dev op).1 = s'
      generalize (step A z.sys.dev op).2 = o
      intro ht
      cases ht with
      | dataAccepted t l hu hc hn ha hp =>
        have h1 := hop t l rfl ((forUs_iff _ t).mp hu) ((control_eq t).mp hc) (by
          have := mt (connectionless_eq t).mpr hn
          simpa using this)
        rw [← sender_eq, ← ha] at h1
        exact absurd (hs.dev.rcv hp).1 h1
      | _ => rfl
  cases hst with
  | receive t rest len hh hl =>
    refine ⟨Nat.le_refl _, ?_⟩
    rcases step_trans A z.sys.dev (.rx t len) with ⟨e, _⟩ | ht
    · left; simp [Dialogue.device, e, delivered]
    · have key : delivered (step A z.sys.dev (.rx t len)).2 = [] ∨
          (delivered (step A z.sys.dev (.rx t len)).2 = [t] ∧ seqOf (t 6) = r % 16) := by
        revert ht
        generalize (step A z.sys.dev (.rx t len)).1 = s'
        generalize (step A z.sys.dev (.rx t len)).2 = o
        intro ht
        cases ht with
        | dataAccepted _ _ hu hc hn ha hp hq =>
          right
          refine ⟨rfl, ?_⟩
          have := (hs.dev.rcv hp).2
          rw [seq_eq t (notFF_of_bit7 _ hc)] at hq
          omega
        | _ => left; rfl
      rcases key with key | ⟨key, hseq⟩
      · left; simp [Dialogue.device, key]
      · right
        refine ⟨by simp [Dialogue.device, key], ?_⟩
        rw [hr]
        exact h.gate t (by rw [hh]; simp) hseq
  | receiveAck t rest len hh =>
    refine ⟨Nat.le_refl _, Or.inl ?_⟩
    rw [h.acks] at hh
    obtain ⟨k, ks', rfl, rfl, rfl⟩ := List.map_eq_cons_iff.mp hh
    have := quiet (.rx (S.ack k) len) (fun t l he _ hcn => by
      cases he
      rw [(ack_facts hF.ack k).1] at hcn; cases hcn)
    simp [Dialogue.device, this]
  | other op hf =>
    refine ⟨Nat.le_refl _, Or.inl ?_⟩
    have := quiet op (fun t l he hu h1 h2 => by
      subst he
      exact (hf.1 hu).1 h1 h2)
    cases op with
    | rx t l => simp [Dialogue.device, this]
    | _ => simp [Dialogue.device]
  | clientData f rest hh =>
    refine ⟨?_, Or.inl rfl⟩
    show _ ≤ (if _ then _ else _ : List (List Byte)).length
    split
    · simp
    · exact Nat.le_refl _
  | _ => exact ⟨Nat.le_refl _, Or.inl rfl⟩

/-- The answers to all requests but the last executed one have been taken. -/
def Gated (S : Client σ) (z : Dialogue σ) : Prop :=
  ∀ k, k + 1 = z.executed.length → answersBefore S.req S.expects k ≤ z.got.length

theorem answersBefore_mono (req : Nat → Buf) (expects : Buf → Bool) (k : Nat) :
    answersBefore req expects k ≤ answersBefore req expects (k + 1) := by
  rw [answersBefore_succ]; omega

theorem gated_reach {A : App σ} {p d : Word} {S : Client σ} (hF : Fits A p d S) {z z' : Dialogue σ}
    (hg : Good A p S z) (h0 : Gated S z) (h : DReach A p S z z') : Gated S z' := by
  induction h with
  | start => exact h0
  | step y y' hr hst ih =>
    obtain ⟨h1, h2⟩ := executed_step hF (good_reach hF hg hr) hst
    intro k hk
    rcases h2 with h2 | ⟨h2, h3⟩
    · have := ih k (by omega); omega
    · have : k = y.executed.length := by omega
      subst this; omega

/-- From any open connection that is in time. -/
theorem recover {A : App σ} {p d : Word} {S : Client σ} (hF : Fits A p d S) (z : Dialogue σ)
    (hg : Good A p S z) (hgate : Gated S z) (hen : z.sys.dev.enabled = true) (hown : z.sys.dev.ownAddr = d)
    (hop : z.sys.dev.phase ≠ .closed)
    (ht : (elapsed z.sys.dev z.sys.dev.connectedTime).toNat < 3000)
    (hrep : z.sys.dev.phase = .openWait → z.got.length < (answered S.expects z.executed).length →
      z.sys.dev.repCount < 3) :
    ∃ z', DReach A p S z z' ∧ Settled S d z' ∧ z'.executed = z.executed := by
  have hd := drop_all A p S z
  have hg1 := good_reach hF hg hd
  obtain ⟨m, F⟩ := rest_facts hg1
  obtain ⟨n, hn⟩ := rest_sent A p S z.sys.dev z.sys.current z.sys.log z.got z.executed F.inv.tx
  -- the client knows that everything is executed
  have step1 : ∃ (s : State σ) (log : List Buf), DReach A p S z (atRest s z.executed.length log z.got z.executed) ∧
      s.ownAddr = d ∧ s.enabled = true ∧ s.phase = z.sys.dev.phase ∧ s.con1 = z.sys.dev.con1 ∧
      (elapsed s s.connectedTime).toNat < 3000 ∧ s.repCount = z.sys.dev.repCount := by
    by_cases hc : z.sys.current = z.executed.length
    · refine ⟨{ z.sys.dev with tx := .free, conCtrlRep := n }, z.sys.log, ?_, hown, hen, rfl, rfl, ht, rfl⟩
      rw [← hc]
      exact hd.trans hn.reach
    · have hc1 : z.sys.current + 1 = z.executed.length := by
        have := F.low; have := F.high; omega
      obtain ⟨e, he⟩ : ∃ e, z.executed[z.sys.current]? = some e :=
        ⟨_, List.getElem?_eq_getElem (by omega)⟩
      have hreq : e.2.1 = S.req z.sys.current := by
        have h1 := congrArg (fun l => l[z.sys.current]?) F.reqs
        simp only [List.getElem?_map, he, Option.map_some] at h1
        rw [List.getElem?_range (by omega)] at h1
        simpa using h1
      have hl := (F.hist _ e he).2
      rw [hreq] at hl
      have hh := rest_again A p d S hF.req { z.sys.dev with tx := .free, conCtrlRep := n } z.sys.current z.sys.log
        z.got z.executed e.2.2 hown hop (F.partner hop)
        (by show z.sys.dev.seqNoRcv = _; rw [F.rcv hop, ← hc1]) rfl (hgate _ hc1) hl
      rw [hc1] at hh
      exact ⟨_, _, (hd.trans hn.reach).trans hh.reach, hown, hen, rfl, rfl,
        by
          show (elapsed z.sys.dev (millis z.sys.dev)).toNat < 3000
          rw [elapsed_self]; decide, rfl⟩
  obtain ⟨s, log, hr1, k1, k2, k3, k4, k5, k6⟩ := step1
  have hg2 := good_reach hF hg hr1
  obtain ⟨m2, F2⟩ := rest_facts hg2
  have hop2 : s.phase ≠ .closed := by rw [k3]; exact hop
  have hn2 : (answered S.expects z.executed).length = answersBefore S.req S.expects z.executed.length :=
    answered_length S.req S.expects z.executed _ F2.reqs
  cases hph : s.phase with
  | closed => exact absurd hph hop2
  | openIdle =>
    cases hc1 : s.con1 with
    | free =>
      obtain ⟨z', a, b, c, e⟩ := finish_idle hF s _ log z.got z.executed hg2 rfl k1 hph hc1
      exact ⟨z', hr1.trans a.reach, b, e⟩
    | acquired =>
      obtain ⟨z', a, b, c, e⟩ := finish_waiting hF s _ log z.got z.executed hg2 rfl k1 k2 hph hc1 (by omega)
      exact ⟨z', hr1.trans a.reach, b, e⟩
    | sending =>
      have := F2.inv.wait.mpr hc1
      rw [hph] at this; cases this
  | openWait =>
    have hc1 : s.con1 = .sending := F2.inv.wait.mp hph
    have hc1' : s.con1 ≠ .free := by rw [hc1]; simp
    have a1 := F2.gotLow
    have a2 := F2.gotHigh
    have a3 := F2.out
    by_cases htaken : z.got.length = m2 + 1
    · obtain ⟨z', a, b, c, e⟩ := finish_taken hF s _ log z.got z.executed hg2 rfl k1 k2 hph
        (fun h0 => by rw [h0] at htaken; simp at htaken) (by rw [F2.send hop2, htaken]; rfl)
      exact ⟨z', hr1.trans a.reach, b, e⟩
    · have hm : z.got.length = m2 := by omega
      have hlt : z.got.length < (answered S.expects z.executed).length := by
        rw [hn2]
        by_cases hc2 : s.con2 = .free
        · have := F2.one hop2 hc1' hc2; omega
        · have := F2.two hop2 hc2; omega
      have hrc := hrep (by rw [← k3]; exact hph) hlt
      obtain ⟨n2, hn2'⟩ := rest_sent A p S s z.executed.length log z.got z.executed F2.inv.tx
      obtain ⟨s1, e1, e2, e3, e4, e5, e6, e7, e8, hr2⟩ := rest_repeat A p S
        { s with tx := .free, conCtrlRep := n2 } z.executed.length log z.got z.executed
        (answered S.expects z.executed) m2 k2 rfl hph (by show s.repCount < 3; rw [k6]; exact hrc) k5
        (F2.bit hc1') (F2.ans hc1')
      have hr3 := (hr1.trans hn2'.reach).trans hr2
      have hg3 := good_reach hF hg hr3
      have hlen : (taking z.got (bytes s.conBuf1 (telegramSize s.conBuf1))).length = m2 + 1 := by
        unfold taking
        rw [number_of_ans (F2.ans hc1'), if_pos (by rw [hm]), List.length_append, hm]; rfl
      obtain ⟨z', a, b, c, e⟩ := finish_taken hF s1 _ log _ z.executed hg3 rfl (e6.trans k1) e7 e5
        (fun h0 => by
          have h0' : taking z.got (bytes s.conBuf1 (telegramSize s.conBuf1)) = [] := h0
          rw [h0'] at hlen; simp at hlen)
        (by
          show s1.seqNoSend = (((taking z.got (bytes s.conBuf1 (telegramSize s.conBuf1))).length - 1) % 16 : Nat)
          rw [hlen]
          exact e8.trans (F2.send hop2))
      exact ⟨z', hr3.trans a.reach, b, e⟩

/-! ## The theorems -/

/-- The first state of a dialogue: the device has just accepted the connection `c`. -/
def connected (A : App σ) (s : State σ) (c : Buf) (len : Nat) : Dialogue σ :=
  { sys := { dev := (step A s (.rx c len)).1, current := 0, toDevice := [], toClient := [], log := [] }
    fromDevice := [], acks := [], got := [], executed := [] }

theorem connected_settled (A : App σ) (S : Client σ) (s : State σ) (hcl : s.phase = .closed) (hfree : s.tx = .free)
    (c : Buf) (len : Nat) (hu : UnicastTo s.ownAddr c) (hc : isConnect c = true) :
    Settled S s.ownAddr (connected A s c len) := by
  have e := connect_step A s c len hcl hu hc
  unfold connected
  rw [e]
  exact ⟨rfl, rfl, rfl, hfree, rfl, rfl, rfl, rfl, rfl, rfl, rfl⟩

/-- What a settled state says about the answers. -/
theorem settled_answers {A : App σ} {p d : Word} {S : Client σ} (z : Dialogue σ) (hg : Good A p S z)
    (hz : Settled S d z) :
    z.executed.map (fun e => e.2.1) = (List.range z.sys.current).map S.req ∧
    z.got.length = (answered S.expects z.executed).length ∧
    ∀ (j : Nat) (f : List Byte), z.got[j]? = some f → ∃ e, (answered S.expects z.executed)[j]? = some e ∧
      ∃ b, IsAnswer p j e.2.1 (A.processApci e.1 e.2.1 e.2.2 b).2.1 f := by
  obtain ⟨r, m, fs, ks, h⟩ := hg
  obtain ⟨is, as, hs⟩ := h.sys
  have hmap : z.executed.map (fun e => e.2.1) = (List.range r).map S.req := by
    rw [← hs.log]; exact h.exec
  have hr : r = z.sys.current := by
    have := congrArg List.length hmap
    have h2 := hz.executed
    simp at this
    omega
  rw [hr] at hmap
  refine ⟨hmap, ?_, fun j f hj => h.got j f hj⟩
  rw [hz.answered, answered_length S.req S.expects z.executed _ hmap]

/-- C110: on an undisturbed bus the dialogue works. For every number `n` of requests there is a run
without losses and duplicates in which the client transmits `n` requests, each is executed once,
acknowledged and answered, and the connection stays open; no waiting for timeouts is needed. -/
theorem C110_undisturbed (A : App σ) (hA : AppPlain A) (p : Word) (S : Client σ) (s : State σ)
    (hreq : Requests p s.ownAddr S.req) (hack : Acks p S.ack) (hackTo : ∀ k, UnicastTo s.ownAddr (S.ack k))
    (hex : Expected A S) (hlens : ∀ i, ∃ len, S.lens (S.req i) len)
    (hs : Reachable A s) (hcl : s.phase = .closed) (hfree : s.tx = .free) (hkn : S.known 0 s.app)
    (c : Buf) (len : Nat) (hu : UnicastTo s.ownAddr c) (hc : isConnect c = true) (hsrc : src c = p) (n : Nat) :
    ∃ z, Calm A p S (connected A s c len) z ∧ z.sys.current = n ∧ Settled S s.ownAddr z ∧
      z.executed.map (fun e => e.2.1) = (List.range n).map S.req ∧
      z.got.length = (answered S.expects z.executed).length ∧
      ∀ (j : Nat) (f : List Byte), z.got[j]? = some f → ∃ e, (answered S.expects z.executed)[j]? = some e ∧
        ∃ b, IsAnswer p j e.2.1 (A.processApci e.1 e.2.1 e.2.2 b).2.1 f := by
  have hF : Fits A p s.ownAddr S := ⟨hA, hreq, hack, hackTo, hex⟩
  have hg : Good A p S (connected A s c len) := start_good s hs hcl hfree hkn c len hu hc hsrc
  obtain ⟨z, h1, h2, h3⟩ := calm_rounds hF hlens n _ hg (connected_settled A S s hcl hfree c len hu hc)
    ((step_enabled A s (.rx c len)).trans (reachable_enabled A s hs))
  have h3 : z.sys.current = n := by
    rw [h3]
    show 0 + n = n
    omega
  obtain ⟨k1, k2, k3⟩ := settled_answers z (good_reach hF hg h1.reach) h2
  rw [h3] at k1
  exact ⟨z, h1, h3, h2, k1, k2, k3⟩

/-- C110: nothing the bus does leads into a dead end. Whatever telegrams have been lost, duplicated or
delayed: as long as the connection is open, the last sign of life in it is less than three seconds old
and an answer the client still waits for has not been repeated three times, the dialogue can be
continued so that everything executed so far is acknowledged and answered, without executing anything
again, and after that as many further requests as one likes. -/
theorem C110_no_dead_end (A : App σ) (hA : AppPlain A) (p : Word) (S : Client σ) (s : State σ)
    (hreq : Requests p s.ownAddr S.req) (hack : Acks p S.ack) (hackTo : ∀ k, UnicastTo s.ownAddr (S.ack k))
    (hex : Expected A S) (hlens : ∀ i, ∃ len, S.lens (S.req i) len)
    (hs : Reachable A s) (hcl : s.phase = .closed) (hfree : s.tx = .free) (hkn : S.known 0 s.app)
    (c : Buf) (len : Nat) (hu : UnicastTo s.ownAddr c) (hc : isConnect c = true) (hsrc : src c = p)
    (z : Dialogue σ) (hz : DReach A p S (connected A s c len) z)
    (hopen : z.sys.dev.phase ≠ .closed) (hown : z.sys.dev.ownAddr = s.ownAddr)
    (hage : (millis z.sys.dev - z.sys.dev.connectedTime).toNat < 3000)
    (hrep : z.sys.dev.phase = .openWait → z.got.length < (answered S.expects z.executed).length →
      z.sys.dev.repCount < 3) (n : Nat) :
    ∃ y, DReach A p S z y ∧ Settled S s.ownAddr y ∧ y.executed = z.executed ∧
    ∃ z', Calm A p S y z' ∧ z'.sys.current = y.sys.current + n ∧ Settled S s.ownAddr z' ∧
      z'.executed.map (fun e => e.2.1) = (List.range (z.executed.length + n)).map S.req ∧
      z'.got.length = (answered S.expects z'.executed).length ∧
      ∀ (j : Nat) (f : List Byte), z'.got[j]? = some f → ∃ e, (answered S.expects z'.executed)[j]? = some e ∧
        ∃ b, IsAnswer p j e.2.1 (A.processApci e.1 e.2.1 e.2.2 b).2.1 f := by
  have hF : Fits A p s.ownAddr S := ⟨hA, hreq, hack, hackTo, hex⟩
  have hg : Good A p S (connected A s c len) := start_good s hs hcl hfree hkn c len hu hc hsrc
  have hen0 : (connected A s c len).sys.dev.enabled = true :=
    (step_enabled A s (.rx c len)).trans (reachable_enabled A s hs)
  have hgate : Gated S z := gated_reach hF hg (fun k hk => by simp [connected] at hk) hz
  obtain ⟨y, h1, h2, h3⟩ := recover hF z (good_reach hF hg hz) hgate ((reach_enabled hz).trans hen0) hown hopen
    hage hrep
  obtain ⟨z', k1, k2, k3⟩ := calm_rounds hF hlens n y (good_reach hF hg (hz.trans h1)) h2
    ((reach_enabled (hz.trans h1)).trans hen0)
  obtain ⟨m1, m2, m3⟩ := settled_answers z' (good_reach hF hg ((hz.trans h1).trans k1.reach)) k2
  refine ⟨y, h1, h2, h3, z', k1, k3, k2, ?_, m2, m3⟩
  rw [m1, k3, ← h2.executed, h3]

/-! Non-vacuity: the client of C109 in a dialogue in which the acknowledgement of a request and the
first transmission of its answer have been lost. -/

theorem echo_ackTo (k : Nat) : UnicastTo 0x1105#16 (echoClient.ack k) := by
  refine ⟨?_, ?_, by decide⟩
  · show isGroup (demoTel 0x11FE#16 0x1105#16 _) = false
    simp [isGroup, demoTel]
  · show dst (demoTel 0x11FE#16 0x1105#16 _) = 0x1105#16
    simp only [dst, demoTel, List.getD_cons_succ, List.getD_cons_zero]
    decide

set_option maxRecDepth 100000 in
example : ∃ z, DReach echoApp 0x11FE#16 echoClient
      (connected echoApp echoStart (demoTel 0x11FE#16 0x1105#16 0x80#8) 7) z ∧
    z.sys.dev.phase = .openWait ∧ z.sys.dev.ownAddr = echoStart.ownAddr ∧
    (millis z.sys.dev - z.sys.dev.connectedTime).toNat < 3000 ∧ z.sys.dev.repCount < 3 ∧
    z.got = [] ∧ z.fromDevice = [] ∧ z.sys.toClient = [] ∧ z.executed.length = 1 ∧ z.sys.current = 0 := by
  have r0 : DReach echoApp 0x11FE#16 echoClient echoDialogue echoDialogue := .start
  have q : ∀ (z : Dialogue Nat) op, (op = .loop ∨ (∃ ok, op = .txDone ok) ∨ ∃ ms, op = .advance ms) →
      DReach echoApp 0x11FE#16 echoClient echoDialogue z →
      DReach echoApp 0x11FE#16 echoClient echoDialogue (z.device echoApp 0x11FE#16 op) :=
    fun z op h r => .step _ _ r (.other z op (foreignD_quiet _ _ _ _ _ h))
  have r1 := DReach.step _ _ r0 (.clientSend echoDialogue (Nat.le_refl _))
  have r2 := DReach.step _ _ r1 (.receive _ (demoReq 0) [] 8 rfl rfl)
  have r3 := DReach.step _ _ r2 (.loseAck _ [] 0 [] (by decide +kernel))
  have r4 := q _ (.txDone true) (by simp) r3
  have r5 := q _ .loop (by simp) r4
  have r6 := DReach.step _ _ r5
    (.loseData _ [] [0xB0#8, 0#8, 0#8, 0x11#8, 0xFE#8, 0x61#8, 0x42#8, 10#8] [] (by decide +kernel))
  have r7 := q _ (.txDone true) (by simp) r6
  have r8 := q _ (.advance 2999) (by simp) r7
  refine ⟨_, r8, ?_, ?_, ?_, ?_, ?_, ?_, ?_, ?_, ?_⟩ <;> decide +kernel

example : Reachable echoApp echoStart ∧ echoStart.ownAddr = 0x1105#16 ∧ AppPlain echoApp ∧
    Acks 0x11FE#16 echoClient.ack ∧ Expected echoApp echoClient ∧ (∀ i, ∃ len, echoClient.lens (echoClient.req i) len) :=
  ⟨⟨0x1105#16, 0, 10, [], rfl⟩, rfl, echoApp_plain, echoClient_acks, echoClient_expected, fun _ => ⟨8, rfl⟩⟩

end Verif.TL4
