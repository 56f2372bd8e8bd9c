import Verif.TL4.Dialogue

/-!
# C109: requests and answers over an unreliable bus
-/

namespace Verif.TL4
open Knx Spec
variable {σ : Type}

theorem appPlain_ok {A : App σ} (h : AppPlain A) : AppOk A := by
  have k : ∀ b : Byte, b &&& 0xFC#8 = 0#8 → b &&& 0x80#8 = 0#8 := by decide +kernel
  exact ⟨h.apci, fun a t l f b hh => k _ (h.broadcast a t l f b hh),
    fun a t l f b hh => k _ (h.group a t l f b hh)⟩

/-- What frame number `j` has to be. -/
def Ans (A : App σ) (p : Word) (q : List (σ × Buf × Nat)) (j : Nat) (f : List Byte) : Prop :=
  ∃ e, q[j]? = some e ∧ ∃ b, IsAnswer p j e.2.1 (A.processApci e.1 e.2.1 e.2.2 b).2.1 f

theorem Ans.mono {A : App σ} {p : Word} {q : List (σ × Buf × Nat)} {j : Nat} {f : List Byte}
    (h : Ans A p q j f) (l : List (σ × Buf × Nat)) : Ans A p (q ++ l) j f := by
  obtain ⟨e, h1, h2⟩ := h
  refine ⟨e, ?_, h2⟩
  have : j < q.length := by
    rcases Nat.lt_or_ge j q.length with h | h
    · exact h
    · rw [List.getElem?_eq_none h] at h1; cases h1
  rw [List.getElem?_append_left this]; exact h1

theorem Ans.lt {A : App σ} {p : Word} {q : List (σ × Buf × Nat)} {j : Nat} {f : List Byte}
    (h : Ans A p q j f) : j < q.length := by
  obtain ⟨e, h1, _⟩ := h
  rcases Nat.lt_or_ge j q.length with h | h
  · exact h
  · rw [List.getElem?_eq_none h] at h1; cases h1

/-- Device part: `n` answers produced, `m` of them acknowledged. -/
structure DevQ (p : Word) (ans : Nat → List Byte → Prop) (s : State σ) (n m : Nat) : Prop where
  num : s.phase ≠ .closed → s.connectedAddr = p ∧ s.seqNoSend = ((m % 16 : Nat) : Int)
  none : s.phase ≠ .closed → s.con1 = .free → n = m
  one : s.phase ≠ .closed → s.con1 ≠ .free → s.con2 = .free → n = m + 1
  two : s.phase ≠ .closed → s.con2 ≠ .free → n = m + 2
  b1 : s.con1 ≠ .free → ans m (bytes s.conBuf1 (telegramSize s.conBuf1))
  b2 : s.con2 ≠ .free → ans (m + 1) (bytes s.conBuf2 (telegramSize s.conBuf2))

theorem dataFor_plain (p : Word) (b : Buf) (h : b 6 &&& 0xFC#8 = 0#8) :
    dataFor p (bytes b (telegramSize b)) = false := by
  unfold dataFor
  split
  · rename_i d1 d2 tp _ _ h6
    rw [bytes_get6 _ _ (telegramSize_ge b)] at h6
    have : ∀ x : Byte, x &&& 0xFC#8 = 0#8 → (x.extractLsb' 6 2 == 0b01#2) = false := by decide +kernel
    rw [← Option.some.inj h6, this _ h, Bool.and_false]
  · rfl

theorem dataFor_control (p : Word) (b : Buf) (h : b 6 &&& 0x80#8 ≠ 0#8) :
    dataFor p (bytes b (telegramSize b)) = false := by
  unfold dataFor
  split
  · rename_i d1 d2 tp _ _ h6
    rw [bytes_get6 _ _ (telegramSize_ge b)] at h6
    have : ∀ x : Byte, x &&& 0x80#8 ≠ 0#8 → (x.extractLsb' 6 2 == 0b01#2) = false := by decide +kernel
    rw [← Option.some.inj h6, this _ h, Bool.and_false]
  · rfl

theorem ctrl6 (b : Buf) (cmd : Byte) (a : Word) (q : Int) (h : cmd &&& 0x80#8 ≠ 0#8) :
    conControlFrame b cmd a q 6 &&& 0x80#8 ≠ 0#8 := by
  unfold conControlFrame
  by_cases hc : cmd &&& 0x40#8 ≠ 0#8
  · rw [if_pos hc]
    simp only [setSequenceNumber, upd_same]
    generalize BitVec.ofInt 8 q = y
    generalize (y <<< (2 : Nat)) = w
    revert h; revert cmd w
    intro cmd _ w h hh
    apply h
    have := congrArg (fun z : Byte => z.getLsbD 7) hh
    apply BitVec.eq_of_getLsbD_eq
    intro i hi
    simp only [BitVec.getLsbD_and, BitVec.getLsbD_or, BitVec.getLsbD_zero] at this ⊢
    by_cases h7 : i = 7
    · subst h7
      have e1 : (0xC3#8).getLsbD 7 = true := by decide
      have e2 : (0x80#8).getLsbD 7 = true := by decide
      rw [e1, e2] at this
      rw [e2]
      revert this
      cases cmd.getLsbD 7 <;> simp
    · have : (0x80#8).getLsbD i = false := by
        have : ∀ i : Fin 8, i.val ≠ 7 → (0x80#8).getLsbD i.val = false := by decide
        exact this ⟨i, hi⟩ h7
      rw [this, Bool.and_false]
  · rw [if_neg hc]
    simp only [upd_same]
    exact h

theorem dataIn_ctrl (p : Word) (s : State σ) (cmd : Byte) (a : Word) (q : Int) (h : cmd &&& 0x80#8 ≠ 0#8) :
    dataIn p [ctrlOut s cmd a q] = [] := by
  simp [dataIn, ctrlOut, frameOf, dataFor_control p _ (ctrl6 s.txBuf cmd a q h)]

theorem dataIn_plain1 (p : Word) (x : Out) (b : Buf) (hx : frameOf x = some (bytes b (telegramSize b)))
    (h : b 6 &&& 0xFC#8 = 0#8) : dataIn p [x] = [] := by
  simp [dataIn, hx, dataFor_plain p b h]

theorem dataIn_plain2 (p : Word) (x y : Out) (b : Buf) (hx : frameOf x = none)
    (hy : frameOf y = some (bytes b (telegramSize b))) (h : b 6 &&& 0xFC#8 = 0#8) :
    dataIn p [x, y] = [] := by
  simp [dataIn, hx, hy, dataFor_plain p b h]

theorem dataIn_data (p : Word) (s : State σ) (f : List Byte) (h : f ∈ dataIn p [dataOut s]) :
    f = bytes s.conBuf1 (telegramSize s.conBuf1) := by
  simp only [dataIn, dataOut, frameOf, List.filterMap_cons, List.filterMap_nil] at h
  have := List.mem_singleton.mp (List.mem_filter.mp h).1
  rw [this, pending_memcpy]

/-- A device step that executes no request. -/
theorem devQ_step (A : App σ) (hA : AppPlain A) (p : Word) (ans : Nat → List Byte → Prop) (s s' : State σ)
    (op : Op) (o : List Out) (n m : Nat) (hi : Inv s) (h : DevQ p ans s n m) (ht : Trans A s op s' o)
    (hns : ∀ f, op = .userSend f → ∀ b, f b 6 &&& 0xFC#8 = 0#8)
    (hnc : ∀ tel len, op = .rx tel len → ForUs s tel → s.phase = .closed → isConnect tel = false)
    (hpl : ∀ tel len, op = .rx tel len → UnicastTo s.ownAddr tel → isConnectionless tel = true → ∀ b,
      (A.processApci s.app tel len b).2.2 = true → (A.processApci s.app tel len b).2.1 6 &&& 0xFC#8 = 0#8)
    (hd : delivered o = []) :
    (DevQ p ans s' n m ∧ ∀ f ∈ dataIn p o, ans m f) ∨
    (∃ tel len, op = .rx tel len ∧ UnicastTo s.ownAddr tel ∧ src tel = p ∧ ackLike tel = true ∧
      seqOf (tel 6) = m % 16 ∧ m < n ∧ DevQ p ans s' n (m + 1) ∧ dataIn p o = []) := by
  have h0 := h
  obtain ⟨h1, h2, h3, h4, h5, h6⟩ := h
  have cl : ∀ t : State σ, t.phase = .closed → t.con1 = .free → t.con2 = .free → DevQ p ans t n m :=
    fun t e1 e2 e3 => ⟨fun h => absurd e1 h, fun h => absurd e1 h, fun h => absurd e1 h,
      fun h => absurd e1 h, fun h => absurd e2 h, fun h => absurd e3 h⟩
  have nil : ∀ {x : List (List Byte)} , x = [] → ∀ f ∈ x, ans m f := by
    intro x hx f hf; rw [hx] at hf; cases hf
  cases ht with
  | rxIgnored | connectSame | disconnectIgnored | ackIgnored | nakIgnored | dataIgnored | loopIdle =>
    exact Or.inl ⟨h0, nil rfl⟩
  | individual | rxBroadcast | rxGroup | setOwnAddress | advance =>
    exact Or.inl ⟨⟨h1, h2, h3, h4, h5, h6⟩, nil rfl⟩
  | rxBroadcastSend tel len f hd2 hf =>
    exact Or.inl ⟨⟨h1, h2, h3, h4, h5, h6⟩, nil (dataIn_plain2 p _ _ _ rfl rfl (hA.broadcast _ _ _ f s.txBuf hf))⟩
  | rxGroupSend tel len f hd2 hg hf =>
    exact Or.inl ⟨⟨h1, h2, h3, h4, h5, h6⟩, nil (dataIn_plain2 p _ _ _ rfl rfl (hA.group _ _ _ f s.txBuf hf))⟩
  | userSend f =>
    exact Or.inl ⟨⟨h1, h2, h3, h4, h5, h6⟩, nil (dataIn_plain1 p _ _ rfl (hns f rfl s.txBuf))⟩
  | individualSend tel len res hu hc htx hr hs =>
    have hb : res.2.1 6 &&& 0xFC#8 = 0#8 := by 
      rw [← hr] at hs ⊢
      exact hpl tel len rfl ((forUs_iff s tel).mp hu) ((connectionless_eq tel).mp hc) _ hs
    exact Or.inl ⟨⟨h1, h2, h3, h4, h5, h6⟩, nil (dataIn_plain2 p _ _ _ rfl rfl hb)⟩
  | connect tel len hu hc hp =>
    have := hnc tel len rfl hu hp
    rw [(connect_eq tel).mp hc] at this; cases this
  | connectOther tel =>
    exact Or.inl ⟨⟨h1, h2, h3, h4, h5, h6⟩, nil (dataIn_ctrl p s _ _ _ (by decide))⟩
  | disconnected => exact Or.inl ⟨cl _ rfl rfl rfl, nil rfl⟩
  | ackWrong | nakClose | loopTimeout | loopGiveUp | disconnect =>
    exact Or.inl ⟨cl _ rfl rfl rfl, nil (dataIn_ctrl p s _ _ _ (by decide))⟩
  | ackOk tel len hu hc h1' h2' hk hp ha hs =>
    have hop : s.phase ≠ .closed := by rw [hp]; simp
    have hn := h1 hop
    have hc1 : s.con1 ≠ .free := by rw [hi.wait.mp hp]; simp
    refine Or.inr ⟨tel, len, rfl, (forUs_iff s tel).mp hu, ?_, ackLike_of tel hc h1' hk, ?_, ?_, ?_, rfl⟩
    · rw [← sender_eq, ← ha]; exact hn.1
    · have := hn.2
      rw [← seq_eq tel (notFF_of_bit0 _ hk)]; omega
    · by_cases hc2 : s.con2 = .free
      · have := h3 hop hc1 hc2; omega
      · have := h4 hop hc2; omega
    · have e : (s.seqNoSend + 1) % 16 = (((m + 1) % 16 : Nat) : Int) := by rw [hn.2]; omega
      by_cases hc2 : s.con2 = .free
      · have hx := h3 hop hc1 hc2
        refine ⟨fun _ => ?_, fun _ _ => hx, fun _ hh => ?_, fun _ hh => ?_, fun hh => ?_, fun hh => ?_⟩
        · simp only [a08, hc2]; exact ⟨hn.1, e⟩
        all_goals simp only [a08, hc2] at hh; exact absurd rfl hh
      · have hx := h4 hop hc2
        have hs2 := h6 hc2
        refine ⟨fun _ => ?_, fun _ hh => ?_, fun _ hh => ?_, fun _ hh => ?_, fun hh => ?_, fun hh => ?_⟩
        · simp only [a08]; rw [if_pos (by simpa using hc2)]; exact ⟨hn.1, e⟩
        · simp only [a08] at hh; rw [if_pos (by simpa using hc2)] at hh; exact absurd hh hc2
        · omega
        · simp only [a08] at hh; rw [if_pos (by simpa using hc2)] at hh; exact absurd rfl hh
        · simp only [a08]; rw [if_pos (by simpa using hc2)]; rw [pending_memcpy]; exact hs2
        · simp only [a08] at hh; rw [if_pos (by simpa using hc2)] at hh; exact absurd rfl hh
  | nakRepeat tel len hu hc h1' h2' hk hp =>
    have hc1 : s.con1 ≠ .free := by rw [hi.wait.mp hp]; simp
    exact Or.inl ⟨⟨h1, h2, h3, h4, h5, h6⟩, fun f hf => by rw [dataIn_data p s f hf]; exact h5 hc1⟩
  | loopRepeat hen htx hp =>
    have hc1 : s.con1 ≠ .free := by rw [hi.wait.mp hp]; simp
    exact Or.inl ⟨⟨h1, h2, h3, h4, h5, h6⟩, fun f hf => by rw [dataIn_data p s f hf]; exact h5 hc1⟩
  | loopSend hen htx hp hc =>
    have hc1 : s.con1 ≠ .free := by rw [hc]; simp
    have hop : s.phase ≠ .closed := by rw [hp]; simp
    refine Or.inl ⟨⟨fun _ => h1 hop, fun _ hh => ?_, fun _ _ => h3 hop hc1, fun _ => h4 hop, fun _ => h5 hc1, h6⟩,
      fun f hf => by rw [dataIn_data p s f hf]; exact h5 hc1⟩
    simp [firstSendState] at hh
  | dataAccepted => simp [delivered] at hd
  | dataRepeated | dataNak =>
    exact Or.inl ⟨⟨h1, h2, h3, h4, h5, h6⟩, nil (dataIn_ctrl p s _ _ _ (by decide))⟩
  | txDoneQuiet ok k htx => exact Or.inl ⟨⟨h1, h2, h3, h4, h5, h6⟩, nil rfl⟩
  | txDoneRetry htx hc hb =>
    refine Or.inl ⟨⟨h1, h2, h3, h4, h5, h6⟩, nil ?_⟩
    simp [dataIn, frameOf, dataFor_control p _ hb]

theorem isAnswer_buf (p : Word) (t : Buf) (j : Nat) (raw : Buf) (h : raw 6 &&& 0x80#8 = 0#8) :
    IsAnswer p j t raw
      (bytes (setSequenceNumber (setDestinationAddress (initLpdu raw (priority t) false false) p)
          (BitVec.ofInt 8 ((j % 16 : Nat) : Int)))
        (telegramSize (setSequenceNumber (setDestinationAddress (initLpdu raw (priority t) false false) p)
          (BitVec.ofInt 8 ((j % 16 : Nat) : Int))))) := by
  obtain ⟨B, hB⟩ : ∃ B, setSequenceNumber (setDestinationAddress (initLpdu raw (priority t) false false) p)
          (BitVec.ofInt 8 ((j % 16 : Nat) : Int)) = B := ⟨_, rfl⟩
  have hj : j % 16 < 16 := by omega
  have hok := bufOk_response raw (priority t) p (j % 16) hj
  rw [hB] at hok
  rw [hB]
  have hB5 : ∀ i, i = 5 ∨ 7 ≤ i → B i = raw i := by
    intro i hi
    rw [← hB]
    simp [setSequenceNumber, setDestinationAddress, initLpdu, setFrameType, setPriority, setRepeated, upd]
    have a : i ≠ 6 ∧ i ≠ 4 ∧ i ≠ 3 ∧ i ≠ 0 := by omega
    simp [a.1, a.2.1, a.2.2.1, a.2.2.2]
  have h6 : B 6 = ((raw 6 &&& 0xC3#8) ||| ((BitVec.ofNat 4 (j % 16)).setWidth 8 <<< (2 : Nat))) ||| 0x40#8 := by
    rw [← hB, ofInt_nat4 _ hj]
    simp only [setSequenceNumber, upd_same]
    rw [frame6]
  have k : ∀ x : Byte, ∀ n : BitVec 4, x &&& 0x80#8 = 0#8 →
      (((x &&& 0xC3#8) ||| (n.setWidth 8 <<< (2 : Nat))) ||| 0x40#8).extractLsb' 6 2 = 0b01#2 ∧
      (((x &&& 0xC3#8) ||| (n.setWidth 8 <<< (2 : Nat))) ||| 0x40#8).extractLsb' 0 2 = x.extractLsb' 0 2 := by
    decide +kernel
  have hk := k (raw 6) (BitVec.ofNat 4 (j % 16)) h
  rw [← h6] at hk
  have hget : ∀ i, i < telegramSize B → (bytes B (telegramSize B)).getD i 0#8 = B i := by
    intro i hi
    simp [bytes, hi]
  have hge := telegramSize_ge B
  have hsz : telegramSize B = 7 + (raw 5 &&& 15#8).toNat := by
    unfold telegramSize; rw [hB5 5 (Or.inl rfl)]
  have h0 : B 0 = 0xB0#8 ||| (t 0 &&& 0x0C#8) := by
    rw [← hB]
    have e : ∀ x : Byte, (((x >>> 2 &&& 0x03#8) <<< (2 : Nat)) ||| ((0xB0#8 ||| 0x20#8) &&& 0xF3#8)) ||| 0x80#8
        = 0xB0#8 ||| (x &&& 0x0C#8) := by decide +kernel
    rw [← e (t 0)]
    rfl
  refine ⟨?_, ?_, ?_, ?_, ?_, ?_, ?_⟩
  · rw [hget 0 (by omega)]; exact h0
  · rw [bytes_length, hsz]
  · rw [hget 3 (by omega), hget 4 (by omega)]; exact hok.1
  · rw [hget 6 (by omega)]; exact hk.1
  · rw [hget 6 (by omega)]; have := hok.2; omega
  · rw [hget 6 (by omega)]; exact hk.2
  · intro i h1 h2
    rw [bytes_length] at h2
    rw [hget i h2]; exact hB5 i h1

/-- The device executes a request. -/
theorem devQ_accept (A : App σ) (hA : AppPlain A) (p : Word) (q : List (σ × Buf × Nat)) (s : State σ)
    (m : Nat) (tel : Buf) (len : Nat) (ex : Bool) (hp : s.phase ≠ .closed)
    (h : DevQ p (Ans A p q) s q.length m) (hroom : q.length ≤ m + 1) (hi : Inv s)
    (hex : ∀ b, (A.processApci s.app tel len b).2.2 = ex) (k : Word) (sq : Int) (e : σ × Buf × Nat)
    (he : e = (s.app, tel, len)) :
    DevQ p (Ans A p (if ex then q ++ [e] else q))
      (a02Process A (ctrlState s T_ACK k sq) tel len) (if ex then q ++ [e] else q).length m := by
  obtain ⟨h1, h2, h3, h4, h5, h6⟩ := h
  have hn := h1 hp
  have hc2 : s.con2 = .free := by
    rcases Classical.em (s.con2 = .free) with hh | hh
    · exact hh
    · have := h4 hp hh; omega
  unfold a02Process
  by_cases hc1 : s.con1 = .free
  · have hlen := h2 hp hc1
    have e1 : (ctrlState s T_ACK k sq).con1 = .free := hc1
    rw [if_pos e1]
    have hx := hex s.conBuf1
    cases ex with
    | true =>
      have hpl := hA.apci _ _ _ _ hx
      have hx' : (A.processApci (ctrlState s T_ACK k sq).app tel len (ctrlState s T_ACK k sq).conBuf1).2.2 = true := hx
      rw [if_pos hx', if_pos rfl]
      refine ⟨fun _ => hn, fun _ hh => ?_, fun _ _ _ => ?_, fun _ hh => absurd hc2 hh, fun _ => ?_,
        fun hh => absurd hc2 hh⟩
      · cases hh
      · rw [List.length_append]; simp [hlen]
      · refine ⟨e, by rw [← hlen]; simp, s.conBuf1, ?_⟩
        have := isAnswer_buf p tel m (A.processApci s.app tel len s.conBuf1).2.1 hpl
        rw [← hn.2, ← hn.1] at this
        rw [he, ← hn.1]
        exact this
    | false =>
      have hx' : ¬ (A.processApci (ctrlState s T_ACK k sq).app tel len (ctrlState s T_ACK k sq).conBuf1).2.2 = true := by
        show ¬ (A.processApci s.app tel len s.conBuf1).2.2 = true
        rw [hx]; simp
      rw [if_neg hx', if_neg (by simp)]
      exact ⟨fun _ => hn, fun _ _ => hlen, fun _ hh => absurd rfl hh, fun _ hh => absurd hc2 hh,
        fun hh => absurd rfl hh, fun hh => absurd hc2 hh⟩
  · have hlen := h3 hp hc1 hc2
    have e1 : ¬ (ctrlState s T_ACK k sq).con1 = .free := hc1
    rw [if_neg e1]
    have hx := hex s.conBuf2
    cases ex with
    | true =>
      have hpl := hA.apci _ _ _ _ hx
      have hx' : (A.processApci (ctrlState s T_ACK k sq).app tel len (ctrlState s T_ACK k sq).conBuf2).2.2 = true := hx
      rw [if_pos hx', if_pos rfl]
      refine ⟨fun _ => hn, fun _ hh => absurd hh hc1, fun _ _ hh => ?_, fun _ _ => ?_,
        fun _ => (h5 hc1).mono _, fun _ => ?_⟩
      · cases hh
      · rw [List.length_append]; simp [hlen]
      · refine ⟨e, by rw [← hlen]; simp, s.conBuf2, ?_⟩
        have := isAnswer_buf p tel (m + 1) (A.processApci s.app tel len s.conBuf2).2.1 hpl
        have e2 : (((m + 1) % 16 : Nat) : Int) = (s.seqNoSend + 1) % 16 := by rw [hn.2]; omega
        rw [e2, ← hn.1] at this
        rw [he, ← hn.1]
        exact this
    | false =>
      have hx' : ¬ (A.processApci (ctrlState s T_ACK k sq).app tel len (ctrlState s T_ACK k sq).conBuf2).2.2 = true := by
        show ¬ (A.processApci s.app tel len s.conBuf2).2.2 = true
        rw [hx]; simp
      rw [if_neg hx', if_neg (by simp)]
      exact ⟨fun _ => hn, fun _ hh => absurd hh hc1, fun _ _ _ => hlen, fun _ hh => absurd rfl hh,
        fun _ => h5 hc1, fun hh => absurd rfl hh⟩

/-- Invariant of the dialogue: `r` requests executed, `m` answers acknowledged, `fs` the data frames on
their way with their numbers, `ks` the acknowledgements on their way. -/
structure DOk (A : App σ) (p : Word) (S : Client σ) (z : Dialogue σ)
    (r m : Nat) (fs : List (Nat × List Byte)) (ks : List Nat) : Prop where
  sys : ∃ is as, SysOk p S.req z.sys r is as
  exec : z.executed.map (fun e => e.2.1) = z.sys.log
  gate : ∀ t ∈ z.sys.toDevice, seqOf (t 6) = r % 16 → answersBefore S.req S.expects r ≤ z.got.length
  dev : DevQ p (Ans A p (answered S.expects z.executed)) z.sys.dev (answered S.expects z.executed).length m
  out : (answered S.expects z.executed).length ≤ z.got.length + 1
  low : m ≤ z.got.length
  high : z.got.length ≤ m + 1
  gotQ : z.got.length ≤ (answered S.expects z.executed).length
  got : ∀ j f, z.got[j]? = some f → Ans A p (answered S.expects z.executed) j f
  from_ : z.fromDevice = fs.map (·.2)
  sortedF : (fs.map (·.1)).Pairwise (· ≤ ·)
  boundF : ∀ x ∈ fs, z.got.length ≤ x.1 + 1 ∧ x.1 ≤ m ∧ Ans A p (answered S.expects z.executed) x.1 x.2
  acks : z.acks = ks.map S.ack
  sortedK : ks.Pairwise (· ≤ ·)
  boundK : ∀ k ∈ ks, k + 1 ≤ z.got.length ∧ m ≤ k + 1
  known : S.known r z.sys.dev.app
  hist : ∀ i e, z.executed[i]? = some e → S.known i e.1 ∧ S.lens e.2.1 e.2.2

theorem answered_length (req : Nat → Buf) (expects : Buf → Bool) (l : List (σ × Buf × Nat)) (r : Nat)
    (h : l.map (fun e => e.2.1) = (List.range r).map req) :
    (answered expects l).length = answersBefore req expects r := by
  have e1 : (answered expects l).length = ((l.map fun e => e.2.1).filter expects).length := by
    rw [List.filter_map, List.length_map]; rfl
  have e2 : answersBefore req expects r = (((List.range r).map req).filter expects).length := by
    rw [List.filter_map, List.length_map]; rfl
  rw [e1, e2, h]

theorem answersBefore_succ (req : Nat → Buf) (expects : Buf → Bool) (r : Nat) :
    answersBefore req expects (r + 1) = answersBefore req expects r + if expects (req r) then 1 else 0 := by
  unfold answersBefore
  rw [List.range_succ, List.filter_append, List.length_append]
  congr 1
  by_cases h : expects (req r) = true <;> simp [h]

theorem sysOk_r (p : Word) (req : Nat → Buf) (y : Sys σ) (r r' : Nat) (is is' as as' : List Nat) (y' : Sys σ)
    (h : SysOk p req y r is as) (h' : SysOk p req y' r' is' as') (he : y'.log = y.log) : r' = r := by
  have a := congrArg List.length h.log
  have b := congrArg List.length h'.log
  rw [he] at b
  simp at a b
  omega

theorem known_step (A : App σ) (P : σ → Prop) (s s' : State σ) (op : Op) (o : List Out)
    (ht : Trans A s op s' o) (hd : delivered o = []) (h0 : P s.app) (hb : ∀ t l, P (A.broadcast s.app t l).1)
    (hg : ∀ t l, P (A.group s.app t l).1)
    (hi : ∀ tel len, op = .rx tel len → UnicastTo s.ownAddr tel → isConnectionless tel = true → ∀ b,
      P (A.processApci s.app tel len b).1) : P s'.app := by
  cases ht with
  | rxBroadcast | rxBroadcastSend => exact hb _ _
  | rxGroup | rxGroupSend => exact hg _ _
  | individual tel len hu hc => exact hi tel len rfl ((forUs_iff s tel).mp hu) ((connectionless_eq tel).mp hc) _
  | individualSend tel len r hu hc htx hr =>
    rw [← hr]
    exact hi tel len rfl ((forUs_iff s tel).mp hu) ((connectionless_eq tel).mp hc) _
  | dataAccepted => simp [delivered] at hd
  | ackOk =>
    simp only [a08]
    split <;> exact h0
  | _ => exact h0

theorem a02_app (A : App σ) (s : State σ) (tel : Buf) (len : Nat) :
    ∃ b, (a02Process A s tel len).app = (A.processApci s.app tel len b).1 := by
  unfold a02Process
  dsimp only
  split
  · refine ⟨s.conBuf1, ?_⟩; split <;> rfl
  · refine ⟨s.conBuf2, ?_⟩; split <;> rfl

/-- A device step that executes no request. -/
theorem dOk_quiet (A : App σ) (hA : AppPlain A) (p : Word) (S : Client σ)
    (hex : Expected A S) (z : Dialogue σ) (r m : Nat) (fs : List (Nat × List Byte)) (ks : List Nat) (op : Op)
    (h : DOk A p S z r m fs ks) (hd : delivered (step A z.sys.dev op).2 = [])
    (hsys : ∃ is as, SysOk p S.req (z.sys.device A p op) r is as)
    (hns : ∀ f, op = .userSend f → ∀ b, f b 6 &&& 0xFC#8 = 0#8)
    (hnc : ∀ tel len, op = .rx tel len → ForUs z.sys.dev tel → z.sys.dev.phase = .closed → isConnect tel = false)
    (hpl : ∀ tel len, op = .rx tel len → UnicastTo z.sys.dev.ownAddr tel → isConnectionless tel = true → ∀ b,
      (A.processApci z.sys.dev.app tel len b).2.2 = true →
        (A.processApci z.sys.dev.app tel len b).2.1 6 &&& 0xFC#8 = 0#8)
    (hkn : ∀ tel len, op = .rx tel len → UnicastTo z.sys.dev.ownAddr tel → isConnectionless tel = true → ∀ b,
      S.known r (A.processApci z.sys.dev.app tel len b).1)
    (hack : ∀ tel len, op = .rx tel len → UnicastTo z.sys.dev.ownAddr tel → src tel = p → ackLike tel = true →
      seqOf (tel 6) = m % 16 → m + 1 ≤ z.got.length ∧ ∀ k ∈ ks, m + 1 ≤ k + 1) :
    ∃ m' fs', DOk A p S (z.device A p op) r m' fs' ks := by
  have hi : Inv z.sys.dev := by obtain ⟨_, _, hh⟩ := h.sys; exact hh.inv
  have hkn' : S.known r (z.device A p op).sys.dev.app := by
    show S.known r (step A z.sys.dev op).1.app
    rcases step_trans A z.sys.dev op with ⟨e, _⟩ | ht
    · rw [e]; exact h.known
    · exact known_step A (S.known r) _ _ op _ ht hd h.known (fun t l => hex.broadcast r _ t l h.known)
        (fun t l => hex.group r _ t l h.known) hkn
  have hex : (z.device A p op).executed = z.executed := by
    simp only [Dialogue.device]
    cases op with
    | rx t len => simp [hd]
    | _ => simp
  have hlog : (z.device A p op).sys.log = z.sys.log := by
    simp [Dialogue.device, Sys.device, hd]
  have hgen : (∃ s' o, step A z.sys.dev op = (s', o) ∧
      DevQ p (Ans A p (answered S.expects z.executed)) s' (answered S.expects z.executed).length m ∧
        ∀ f ∈ dataIn p o, Ans A p (answered S.expects z.executed) m f) ∨
      (∃ s' o, step A z.sys.dev op = (s', o) ∧
        DevQ p (Ans A p (answered S.expects z.executed)) s' (answered S.expects z.executed).length (m + 1) ∧
        dataIn p o = [] ∧ m + 1 ≤ z.got.length ∧ ∀ k ∈ ks, m + 1 ≤ k + 1) := by
    rcases step_trans A z.sys.dev op with ⟨e, _⟩ | ht
    · exact Or.inl ⟨_, _, e, h.dev, by simp [dataIn]⟩
    · rcases devQ_step A hA p _ z.sys.dev _ op _ _ m hi h.dev ht hns hnc hpl hd with hh | hh
      · exact Or.inl ⟨_, _, rfl, hh.1, hh.2⟩
      · obtain ⟨tel, len, e1, e2, e3, e4, e5, _, e7, e8⟩ := hh
        exact Or.inr ⟨_, _, rfl, e7, e8, hack tel len e1 e2 e3 e4 e5⟩
  rcases hgen with ⟨s', o, e, hq, hf⟩ | ⟨s', o, e, hq, hf, hlo, hk⟩
  · refine ⟨m, fs ++ (dataIn p o).map (fun f => (m, f)), ?_⟩
    constructor
    · exact hsys
    · rw [hex, hlog]; exact h.exec
    · exact h.gate
    · rw [hex]; simp only [Dialogue.device, Sys.device, e]; exact hq
    · rw [hex]; exact h.out
    · exact h.low
    · exact h.high
    · rw [hex]; exact h.gotQ
    · rw [hex]; exact h.got
    · simp only [Dialogue.device, e, h.from_, List.map_append, List.map_map]
      congr 1
      simp [Function.comp_def]
    · rw [List.map_append, List.map_map]
      apply pairwise_snoc _ h.sortedF _ m
      · intro y hy
        obtain ⟨x, _, rfl⟩ := List.mem_map.mp hy; rfl
      · intro y hy
        obtain ⟨x, hx, rfl⟩ := List.mem_map.mp hy
        exact (h.boundF x hx).2.1
    · intro x hx
      rw [hex]
      rcases List.mem_append.mp hx with hx | hx
      · exact h.boundF x hx
      · obtain ⟨f, hfm, rfl⟩ := List.mem_map.mp hx
        exact ⟨h.high, Nat.le_refl _, hf f hfm⟩
    · exact h.acks
    · exact h.sortedK
    · exact h.boundK
    · exact hkn'
    · rw [hex]; exact h.hist
  · refine ⟨m + 1, fs, ?_⟩
    constructor
    · exact hsys
    · rw [hex, hlog]; exact h.exec
    · exact h.gate
    · rw [hex]; simp only [Dialogue.device, Sys.device, e]; exact hq
    · rw [hex]; exact h.out
    · exact hlo
    · have := h.high
      show z.got.length ≤ m + 1 + 1
      omega
    · rw [hex]; exact h.gotQ
    · rw [hex]; exact h.got
    · simp only [Dialogue.device, e, hf, List.append_nil]; exact h.from_
    · exact h.sortedF
    · intro x hx
      rw [hex]
      have := h.boundF x hx
      exact ⟨this.1, by omega, this.2.2⟩
    · exact h.acks
    · exact h.sortedK
    · intro k hk'
      exact ⟨(h.boundK k hk').1, hk k hk'⟩
    · exact hkn'
    · rw [hex]; exact h.hist

/-- The device executes a request. -/
theorem dOk_execute (A : App σ) (hA : AppPlain A) (p d : Word) (S : Client σ) (hreq : Requests p d S.req)
    (hex : Expected A S)
    (z : Dialogue σ) (r m : Nat) (fs : List (Nat × List Byte)) (ks : List Nat) (t : Buf) (rest : List Buf)
    (len : Nat) (h : DOk A p S z r m fs ks) (ht : z.sys.toDevice = t :: rest)
    (hl : S.lens t len)
    (hd : delivered (step A z.sys.dev (.rx t len)).2 ≠ []) :
    ∃ r' m' fs' ks', DOk A p S
      ({ z with sys := { z.sys with toDevice := rest } }.device A p (.rx t len)) r' m' fs' ks' := by
  obtain ⟨is, as, hs⟩ := h.sys
  obtain ⟨r', is', as', hs'⟩ := sysOk_step A (appPlain_ok hA) p d S.req hreq z.sys _ r is as hs
    (.receive z.sys t rest len ht)
  have hcur : z.sys.current ≤ r := hs.low
  have htr : Trans A z.sys.dev (.rx t len) (step A z.sys.dev (.rx t len)).1 (step A z.sys.dev (.rx t len)).2 := by
    rcases step_trans A z.sys.dev (.rx t len) with ⟨e, _⟩ | htr
    · rw [e] at hd; exact absurd rfl hd
    · exact htr
  obtain ⟨j, hj⟩ : ∃ j, t = S.req j := by
    have := hs.toDevice
    rw [ht] at this
    obtain ⟨j, _, _, rfl, _⟩ := List.map_eq_cons_iff.mp this.symm
    exact ⟨j, rfl⟩
  revert hd htr hs'
  generalize hse : step A z.sys.dev (.rx t len) = so
  obtain ⟨s', o⟩ := so
  dsimp only
  intro hd hs' htr
  cases htr with
  | dataAccepted _ _ hu hc hn ha hp hsq htx =>
    have hff : t 6 ≠ 0xFF#8 := notFF_of_bit7 _ hc
    have hrcv := (hs.dev.rcv hp).2
    rw [seq_eq t hff, hrcv] at hsq
    have hseq : seqOf (t 6) = r % 16 := by omega
    have hr' : r' = r + 1 := by
      have a := congrArg List.length hs.log
      have b := congrArg List.length hs'.log
      simp [Sys.device, hse, delivered] at a b
      omega
    subst hr'
    have hjr : S.req j = S.req r := by
      have hlog := hs'.log
      simp only [Sys.device, hse, delivered, hs.log, List.range_succ, List.map_append, List.map_cons,
        List.map_nil] at hlog
      have := List.append_cancel_left hlog
      rw [← hj]; exact List.singleton_inj.mp this
    have htreq : t = S.req r := by rw [hj]; exact hjr
    have hQ : (answered S.expects z.executed).length = answersBefore S.req S.expects r :=
      answered_length S.req S.expects _ r (by rw [h.exec, hs.log])
    have hgate : answersBefore S.req S.expects r ≤ z.got.length :=
      h.gate t (by rw [ht]; simp) hseq
    have hgot : z.got.length = (answered S.expects z.executed).length := by
      have := h.gotQ; omega
    obtain ⟨e, he⟩ : ∃ e, e = (z.sys.dev.app, t, len) := ⟨_, rfl⟩
    have hexec : ({ z with sys := { z.sys with toDevice := rest } }.device A p (.rx t len)).executed =
        z.executed ++ [e] := by
      simp [Dialogue.device, hse, delivered, he]
    have hQ' : answered S.expects (z.executed ++ [e]) =
        if S.expects t then answered S.expects z.executed ++ [e] else answered S.expects z.executed := by
      unfold answered
      rw [List.filter_append]
      have : e.2.1 = t := by rw [he]
      by_cases hx : S.expects t = true
      · simp [this, hx]
      · simp [this, hx]
    have hacc := devQ_accept A hA p (answered S.expects z.executed) z.sys.dev m t len (S.expects t) hp h.dev
      (by have := h.high; omega) hs.inv (fun b => by rw [htreq] at hl ⊢; exact hex.answer r _ _ _ h.known hl) z.sys.dev.connectedAddr
      (sequenceNumber t).toNat e he
    rw [← hQ'] at hacc
    have mono : ∀ j f, Ans A p (answered S.expects z.executed) j f →
        Ans A p (answered S.expects (z.executed ++ [e])) j f := by
      intro j f hh
      unfold answered
      rw [List.filter_append]
      exact hh.mono _
    have hlen : (answered S.expects z.executed).length ≤ (answered S.expects (z.executed ++ [e])).length ∧
        (answered S.expects (z.executed ++ [e])).length ≤ (answered S.expects z.executed).length + 1 := by
      rw [hQ']
      by_cases hx : S.expects t = true
      · simp [hx]
      · simp [hx]
    refine ⟨r + 1, m, fs, ks, ?_⟩
    constructor
    · exact ⟨is', as', hs'⟩
    · rw [hexec]
      simp only [Dialogue.device, Sys.device, hse, List.map_append, h.exec, he]
      rfl
    · intro u hu' hseq'
      exfalso
      have hb := hs'.toDevice
      have hmem : u ∈ is'.map S.req := by rw [← hb]; exact hu'
      obtain ⟨i, hi, rfl⟩ := List.mem_map.mp hmem
      have hbi := hs'.boundI i hi
      rw [hreq.seq i] at hseq'
      have : i ≤ z.sys.current := hbi.2
      omega
    · rw [hexec]
      simp only [Dialogue.device, Sys.device, hse]
      exact hacc
    · rw [hexec]
      show _ ≤ z.got.length + 1
      omega
    · exact h.low
    · exact h.high
    · rw [hexec]
      show z.got.length ≤ _
      omega
    · rw [hexec]
      intro j f hh
      exact mono j f (h.got j f hh)
    · have : dataIn p [ctrlOut z.sys.dev T_ACK z.sys.dev.connectedAddr (sequenceNumber t).toNat,
          Out.apciConnected t len] = [] := by
        have := dataIn_ctrl p z.sys.dev T_ACK z.sys.dev.connectedAddr (sequenceNumber t).toNat (by decide)
        simpa [dataIn, frameOf] using this
      simp only [Dialogue.device, hse, this, List.append_nil]
      exact h.from_
    · exact h.sortedF
    · intro x hx
      rw [hexec]
      have := h.boundF x hx
      exact ⟨this.1, this.2.1, mono _ _ this.2.2⟩
    · exact h.acks
    · exact h.sortedK
    · exact h.boundK
    · simp only [Dialogue.device, Sys.device, hse]
      obtain ⟨b, hb⟩ := a02_app A (ctrlState z.sys.dev T_ACK z.sys.dev.connectedAddr (sequenceNumber t).toNat) t len
      rw [hb]
      rw [htreq] at hl ⊢
      exact hex.next r _ _ _ h.known hl
    · intro i e' hi'
      rw [hexec] at hi'
      have hlen' : z.executed.length = r := by
        have := congrArg List.length h.exec
        rw [hs.log] at this
        simpa using this
      rcases Nat.lt_or_ge i z.executed.length with hlt | hge
      · rw [List.getElem?_append_left hlt] at hi'
        exact h.hist i e' hi'
      · rw [List.getElem?_append_right hge] at hi'
        by_cases h0 : i - z.executed.length = 0
        · rw [h0] at hi'
          have : e = e' := by simpa using hi'
          rw [← this, he, show i = r by omega]
          exact ⟨h.known, hl⟩
        · rw [List.getElem?_eq_none (by simp; omega)] at hi'
          cases hi'
  | _ => exact absurd rfl hd

theorem req_facts {p d : Word} {req : Nat → Buf} (hreq : Requests p d req) (i : Nat) :
    isControl (req i) = false ∧ isConnect (req i) = false ∧ ackLike (req i) = false ∧
      isConnectionless (req i) = false := by
  have h := hreq.numbered i
  have k : isControl (req i) = false := by
    unfold isNumberedData at h; unfold isControl
    revert h; generalize req i 6 = b; revert b; decide +kernel
  refine ⟨k, ?_, by unfold ackLike; rw [k]; rfl, ?_⟩
  · unfold isNumberedData at h; unfold isConnect
    revert h; generalize req i 6 = b; revert b; decide +kernel
  · unfold isNumberedData at h; unfold isConnectionless
    revert h; generalize req i 6 = b; revert b; decide +kernel

theorem ack_facts {p : Word} {ack : Nat → Buf} (hack : Acks p ack) (k : Nat) :
    isControl (ack k) = true ∧ isConnect (ack k) = false := by
  have h := hack.isAck k
  constructor
  · unfold isAck at h; unfold isControl
    revert h; generalize ack k 6 = b; revert b; decide +kernel
  · unfold isAck at h; unfold isConnect
    revert h; generalize ack k 6 = b; revert b; decide +kernel

theorem number_of_ans {A : App σ} {p : Word} {q : List (σ × Buf × Nat)} {j : Nat} {f : List Byte}
    (h : Ans A p q j f) : numberIn f = j % 16 := by
  obtain ⟨_, _, _, hh⟩ := h
  exact hh.number

theorem dOk_step (A : App σ) (hA : AppPlain A) (p d : Word) (S : Client σ) (hreq : Requests p d S.req)
    (hack : Acks p S.ack) (hex : Expected A S)
    (z z' : Dialogue σ) (r m : Nat) (fs : List (Nat × List Byte)) (ks : List Nat)
    (h : DOk A p S z r m fs ks) (hst : DStep A p S z z') :
    ∃ r' m' fs' ks', DOk A p S z' r' m' fs' ks' := by
  obtain ⟨is, as, hs⟩ := h.sys
  have hok := appPlain_ok hA
  -- steps that change only the system of C03, and neither the device nor the log
  have small : ∀ y', SysStep A p S.req z.sys y' → y'.dev = z.sys.dev → y'.log = z.sys.log →
      (∀ t ∈ y'.toDevice, t ∈ z.sys.toDevice ∨
        (t = S.req z.sys.current ∧ answersBefore S.req S.expects z.sys.current ≤ z.got.length)) →
      ∃ r' m' fs' ks', DOk A p S { z with sys := y' } r' m' fs' ks' := by
    intro y' hy hdev hlog hto
    obtain ⟨r', is', as', hs'⟩ := sysOk_step A hok p d S.req hreq z.sys y' r is as hs hy
    have hr : r' = r := sysOk_r p S.req z.sys r r' is is' as as' y' hs hs' hlog
    subst hr
    refine ⟨r', m, fs, ks, ⟨is', as', hs'⟩, ?_, ?_, ?_, h.out, h.low, h.high, h.gotQ, h.got, h.from_, h.sortedF,
      h.boundF, h.acks, h.sortedK, h.boundK, ?_, h.hist⟩
    · show _ = y'.log
      rw [hlog]; exact h.exec
    · intro t ht hseq
      rcases hto t ht with hh | ⟨hh, hg⟩
      · exact h.gate t hh hseq
      · rw [hh, hreq.seq] at hseq
        have h1 := hs.low
        have h2 := hs.high
        have : z.sys.current = r' := by omega
        show _ ≤ z.got.length
        rw [← this]
        exact hg
    · show DevQ p _ y'.dev _ m
      rw [hdev]; exact h.dev
    · show S.known r' y'.dev.app
      rw [hdev]; exact h.known
  cases hst with
  | clientSend hg =>
    refine small _ (.clientSend z.sys) rfl rfl ?_
    intro t ht
    rcases List.mem_append.mp ht with ht | ht
    · exact Or.inl ht
    · exact Or.inr ⟨List.mem_singleton.mp ht, hg⟩
  | lose a x b hh =>
    refine small _ (.lose z.sys a x b hh) rfl rfl ?_
    intro t ht
    left; rw [hh]
    rcases List.mem_append.mp ht with ht | ht <;> simp [ht]
  | dup a x b hh =>
    refine small _ (.dup z.sys a x b hh) rfl rfl ?_
    intro t ht
    left; rw [hh]; simpa using ht
  | loseAck a x b hh => exact small _ (.loseAck z.sys a x b hh) rfl rfl fun t ht => Or.inl ht
  | dupAck a x b hh => exact small _ (.dupAck z.sys a x b hh) rfl rfl fun t ht => Or.inl ht
  | clientAck n rest hh => exact small _ (.clientAck z.sys n rest hh) rfl rfl fun t ht => Or.inl ht
  | loseData a x b hh =>
    rw [h.from_] at hh
    obtain ⟨a', x', b', rfl, rfl, rfl, rfl⟩ := map_split _ _ _ _ _ hh
    refine ⟨r, m, a' ++ b', ks, ⟨is, as, hs⟩, h.exec, h.gate, h.dev, h.out, h.low, h.high, h.gotQ, h.got,
      by simp, ?_, ?_, h.acks, h.sortedK, h.boundK, h.known, h.hist⟩
    · have := h.sortedF
      simp only [List.map_append, List.map_cons] at this ⊢
      exact pairwise_lose _ _ _ this
    · intro y hy
      exact h.boundF y (by rcases List.mem_append.mp hy with hy | hy <;> simp [hy])
  | dupData a x b hh =>
    rw [h.from_] at hh
    obtain ⟨a', x', b', rfl, rfl, rfl, rfl⟩ := map_split _ _ _ _ _ hh
    refine ⟨r, m, a' ++ x' :: x' :: b', ks, ⟨is, as, hs⟩, h.exec, h.gate, h.dev, h.out, h.low, h.high, h.gotQ,
      h.got, by simp, ?_, ?_, h.acks, h.sortedK, h.boundK, h.known, h.hist⟩
    · have := h.sortedF
      simp only [List.map_append, List.map_cons] at this ⊢
      exact pairwise_dup _ _ _ this
    · intro y hy
      exact h.boundF y (by simpa using hy)
  | loseAnswerAck a x b hh =>
    rw [h.acks] at hh
    obtain ⟨a', x', b', rfl, rfl, rfl, rfl⟩ := map_split _ _ _ _ _ hh
    refine ⟨r, m, fs, a' ++ b', ⟨is, as, hs⟩, h.exec, h.gate, h.dev, h.out, h.low, h.high, h.gotQ, h.got,
      h.from_, h.sortedF, h.boundF, by simp, pairwise_lose _ _ _ h.sortedK, ?_, h.known, h.hist⟩
    intro y hy
    exact h.boundK y (by rcases List.mem_append.mp hy with hy | hy <;> simp [hy])
  | dupAnswerAck a x b hh =>
    rw [h.acks] at hh
    obtain ⟨a', x', b', rfl, rfl, rfl, rfl⟩ := map_split _ _ _ _ _ hh
    refine ⟨r, m, fs, a' ++ x' :: x' :: b', ⟨is, as, hs⟩, h.exec, h.gate, h.dev, h.out, h.low, h.high, h.gotQ,
      h.got, h.from_, h.sortedF, h.boundF, by simp, pairwise_dup _ _ _ h.sortedK, ?_, h.known, h.hist⟩
    intro y hy
    exact h.boundK y (by simpa using hy)
  | answerAck hg =>
    have hpos : 0 < z.got.length := List.length_pos_iff.mpr hg
    refine ⟨r, m, fs, ks ++ [z.got.length - 1], ⟨is, as, hs⟩, h.exec, h.gate, h.dev, h.out, h.low, h.high,
      h.gotQ, h.got, h.from_, h.sortedF, h.boundF, by simp [h.acks], ?_, ?_, h.known, h.hist⟩
    · apply pairwise_snoc _ h.sortedK _ (z.got.length - 1) (by simp)
      intro k hk
      have := h.boundK k hk; omega
    · intro k hk
      rcases List.mem_append.mp hk with hk | hk
      · exact h.boundK k hk
      · rw [List.mem_singleton.mp hk]
        have := h.low
        show _ ≤ z.got.length ∧ _
        omega
  | clientData f rest hh =>
    rw [h.from_] at hh
    obtain ⟨x, fs', rfl, rfl, rfl⟩ := List.map_eq_cons_iff.mp hh
    have hx := h.boundF x (by simp)
    have hnum := number_of_ans hx.2.2
    have hsort := h.sortedF
    rw [List.map_cons, List.pairwise_cons] at hsort
    by_cases hn : numberIn x.2 = z.got.length % 16
    · have hxg : x.1 = z.got.length := by
        have := h.low
        omega
      refine ⟨r, m, fs', ks, ⟨is, as, hs⟩, h.exec, ?_, h.dev, ?_, ?_, ?_, ?_, ?_, rfl, hsort.2, ?_, h.acks,
        h.sortedK, ?_, h.known, h.hist⟩
      all_goals simp only [hn, if_true, List.length_append, List.length_singleton]
      · intro t ht hseq
        have := h.gate t ht hseq
        omega
      · have := h.out; omega
      · have := h.low; omega
      · omega
      · have := hx.2.2.lt; omega
      · intro j f hj
        rcases Nat.lt_trichotomy j z.got.length with hlt | heq | hgt
        · rw [List.getElem?_append_left hlt] at hj
          exact h.got j f hj
        · subst heq
          rw [List.getElem?_append_right (Nat.le_refl _)] at hj
          simp at hj
          rw [← hj, ← hxg]; exact hx.2.2
        · rw [List.getElem?_eq_none (by simp; omega)] at hj
          cases hj
      · intro y hy
        have h1 := h.boundF y (by simp [hy])
        have h2 := hsort.1 y.1 (List.mem_map.mpr ⟨y, hy, rfl⟩)
        exact ⟨by omega, h1.2⟩
      · intro k hk
        have := h.boundK k hk
        omega
    · refine ⟨r, m, fs', ks, ⟨is, as, hs⟩, h.exec, ?_, h.dev, ?_, ?_, ?_, ?_, ?_, rfl, hsort.2, ?_, h.acks,
        h.sortedK, ?_, h.known, h.hist⟩
      all_goals simp only [hn, if_false]
      · exact h.gate
      · exact h.out
      · exact h.low
      · exact h.high
      · exact h.gotQ
      · exact h.got
      · exact fun y hy => h.boundF y (by simp [hy])
      · exact h.boundK
  | receive t rest len hh hl =>
    by_cases hd : delivered (step A z.sys.dev (.rx t len)).2 = []
    · obtain ⟨j, hj⟩ : ∃ j, t = S.req j := by
        have := hs.toDevice
        rw [hh] at this
        obtain ⟨j, _, _, rfl, _⟩ := List.map_eq_cons_iff.mp this.symm
        exact ⟨j, rfl⟩
      have hf := req_facts hreq j
      have hz1 : ∃ r' m' fs' ks', DOk A p S
          { z with sys := { z.sys with toDevice := rest } } r' m' fs' ks' :=
        small _ (.lose z.sys [] t rest hh) rfl rfl fun u hu => by left; rw [hh]; simp [hu]
      obtain ⟨r1, m1, fs1, ks1, h1⟩ := hz1
      obtain ⟨is1, as1, hs1⟩ := h1.sys
      obtain ⟨r', is', as', hs'⟩ := sysOk_step A hok p d S.req hreq z.sys _ r is as hs (.receive z.sys t rest len hh)
      have hr1 : r1 = r := sysOk_r p S.req z.sys r r1 is is1 as as1 _ hs hs1 rfl
      have hr' : r' = r := sysOk_r p S.req z.sys r r' is is' as as' _ hs hs' (by simp [Sys.device, hd])
      rw [hr'] at hs'; rw [hr1] at h1
      obtain ⟨m2, fs2, h2⟩ := dOk_quiet A hA p S hex _ r m1 fs1 ks1 (.rx t len) h1 hd ⟨is', as', hs'⟩
        (fun f hf => by cases hf) (fun tel l he _ _ => by cases he; rw [hj]; exact hf.2.1)
        (fun tel l he _ hcl => by cases he; rw [hj, hf.2.2.2] at hcl; cases hcl)
        (fun tel l he _ hcl => by cases he; rw [hj, hf.2.2.2] at hcl; cases hcl)
        (fun tel l he _ _ hal => by cases he; rw [hj, hf.2.2.1] at hal; cases hal)
      exact ⟨r, m2, fs2, ks1, h2⟩
    · exact dOk_execute A hA p d S hreq hex z r m fs ks t rest len h hh hl hd
  | other op hfo =>
    obtain ⟨r', is', as', hs'⟩ := sysOk_step A hok p d S.req hreq z.sys _ r is as hs (.other z.sys op hfo.1)
    have hd : delivered (step A z.sys.dev op).2 = [] := by
      rcases step_trans A z.sys.dev op with ⟨e, _⟩ | ht
      · rw [e]; rfl
      · revert ht
        generalize (step A z.sys.dev op).1 = s'
        generalize (step A z.sys.dev op).2 = o
        intro ht
        cases ht with
        | dataAccepted tel len hu hc hn ha hp hsq htx =>
          exfalso
          have hu' := (forUs_iff _ tel).mp hu
          have := (hfo.1 hu').1 ((control_eq tel).mp hc)
            (by simpa using (not_congr (connectionless_eq tel)).mp hn)
          rw [← sender_eq, ← ha] at this
          exact this (hs.dev.rcv hp).1
        | _ => rfl
    have hr' : r' = r := sysOk_r p S.req z.sys r r' is is' as as' _ hs hs' (by simp [Sys.device, hd])
    rw [hr'] at hs'
    obtain ⟨m2, fs2, h2⟩ := dOk_quiet A hA p S hex z r m fs ks op h hd ⟨is', as', hs'⟩
      hfo.2.2.1 (fun tel l he hu hp => by subst he; exact (hfo.1 ((forUs_iff _ tel).mp hu)).2 hp) hfo.2.2.2.1
      (fun tel l he hu hcl b => hfo.2.2.2.2 tel l he hu hcl b r h.known)
      (fun tel l he hu hsrc hal => by rw [hfo.2.1 tel l he hu hsrc] at hal; cases hal)
    exact ⟨r, m2, fs2, ks, h2⟩
  | receiveAck t rest len hh =>
    rw [h.acks] at hh
    obtain ⟨k, ks', rfl, rfl, rfl⟩ := List.map_eq_cons_iff.mp hh
    have hk := h.boundK k (by simp)
    have hsort := List.pairwise_cons.mp h.sortedK
    have hf := ack_facts hack k
    have h1 : DOk A p S { z with acks := ks'.map S.ack } r m fs ks' :=
      ⟨h.sys, h.exec, h.gate, h.dev, h.out, h.low, h.high, h.gotQ, h.got, h.from_, h.sortedF, h.boundF, rfl,
        hsort.2, fun k' hk' => h.boundK k' (by simp [hk']), h.known, h.hist⟩
    have hfor : Foreign p z.sys.dev (.rx (S.ack k) len) := by
      intro _
      exact ⟨fun hc => absurd (hf.1.symm.trans hc) (by simp), fun _ => hf.2⟩
    obtain ⟨r', is', as', hs'⟩ := sysOk_step A hok p d S.req hreq z.sys _ r is as hs
      (.other z.sys (.rx (S.ack k) len) hfor)
    have hd : delivered (step A z.sys.dev (.rx (S.ack k) len)).2 = [] := by
      rcases step_trans A z.sys.dev (.rx (S.ack k) len) with ⟨e, _⟩ | ht
      · rw [e]; rfl
      · revert ht
        generalize (step A z.sys.dev (.rx (S.ack k) len)).1 = s'
        generalize (step A z.sys.dev (.rx (S.ack k) len)).2 = o
        intro ht
        cases ht with
        | dataAccepted _ _ hu hc =>
          have := (control_eq _).mp hc
          rw [hf.1] at this; cases this
        | _ => rfl
    have hr' : r' = r := sysOk_r p S.req z.sys r r' is is' as as' _ hs hs' (by simp [Sys.device, hd])
    rw [hr'] at hs'
    obtain ⟨m2, fs2, h2⟩ := dOk_quiet A hA p S hex { z with acks := ks'.map S.ack } r m fs ks'
      (.rx (S.ack k) len) h1 hd ⟨is', as', hs'⟩ (fun f hf => by cases hf)
      (fun tel l he _ _ => by cases he; exact hf.2)
      (fun tel l he _ hcl => by
        cases he
        have k : ∀ b : Buf, isControl b = true → isConnectionless b = false := by
          intro b; unfold isControl isConnectionless; generalize b 6 = x; revert x; decide +kernel
        rw [k _ hf.1] at hcl; cases hcl)
      (fun tel l he _ hcl => by
        cases he
        have k : ∀ b : Buf, isControl b = true → isConnectionless b = false := by
          intro b; unfold isControl isConnectionless; generalize b 6 = x; revert x; decide +kernel
        rw [k _ hf.1] at hcl; cases hcl)
      (fun tel l he _ _ _ hseq => by
        cases he
        rw [hack.seq k] at hseq
        have hkm : k = m := by have := h.high; omega
        subst hkm
        exact ⟨hk.1, fun k' hk' => by have := hsort.1 k' hk'; omega⟩)
    exact ⟨r, m2, fs2, ks', h2⟩

/-- C109: a dialogue over a bus that loses and duplicates telegrams. In every reachable state the
application has executed exactly the client's first `r` requests, in order and each once, where `r` is
the number of acknowledged requests or one more; the answers the client has taken are the answers the
application gave to those requests that get one, in order and each once; at most one is missing. -/
theorem C109_dialogue (A : App σ) (hA : AppPlain A) (p d : Word) (S : Client σ)
    (hreq : Requests p d S.req) (hack : Acks p S.ack) (hex : Expected A S)
    (s : State σ) (hs : Reachable A s) (hcl : s.phase = .closed) (hfree : s.tx = .free) (hkn : S.known 0 s.app) (c : Buf) (len : Nat)
    (hu : UnicastTo s.ownAddr c) (hc : isConnect c = true) (hsrc : src c = p) (z : Dialogue σ)
    (hz : DReach A p S
      { sys := { dev := (step A s (.rx c len)).1, current := 0, toDevice := [], toClient := [], log := [] }
        fromDevice := [], acks := [], got := [], executed := [] } z) :
    (∃ r, z.executed.map (fun e => e.2.1) = (List.range r).map S.req ∧
      z.sys.current ≤ r ∧ r ≤ z.sys.current + 1 ∧ S.known r z.sys.dev.app) ∧
    (∀ i e, z.executed[i]? = some e → S.known i e.1 ∧ S.lens e.2.1 e.2.2) ∧
    z.got.length ≤ (answered S.expects z.executed).length ∧
    (answered S.expects z.executed).length ≤ z.got.length + 1 ∧
    ∀ j f, z.got[j]? = some f → ∃ e, (answered S.expects z.executed)[j]? = some e ∧
      ∃ b, IsAnswer p j e.2.1 (A.processApci e.1 e.2.1 e.2.2 b).2.1 f := by
  have main : ∃ r m fs ks, DOk A p S z r m fs ks := by
    induction hz with
    | start =>
      have hinv := inv_step A s (.rx c len) (inv_reachable A s hs)
      rw [connect_step A s c len hcl hu hc] at hinv ⊢
      refine ⟨0, 0, [], [], ⟨[], [], ?_⟩, rfl, ?_, ?_, by simp [answered], by simp, by simp, by simp, by simp,
        rfl, List.Pairwise.nil, by simp, rfl, List.Pairwise.nil, by simp, hkn, by simp⟩
      · constructor
        · exact hinv
        · refine ⟨fun _ => ⟨hsrc, rfl⟩, fun h => absurd rfl h, fun h => absurd rfl h, fun h => ?_, fun h => by cases h⟩
          have : s.tx = .sending := h
          rw [hfree] at this; cases this
        all_goals simp
      · intro t ht; cases ht
      · exact ⟨fun _ => ⟨hsrc, rfl⟩, fun _ _ => rfl, fun _ h => absurd rfl h, fun _ h => absurd rfl h,
          fun h => absurd rfl h, fun h => absurd rfl h⟩
    | step z z' _ hst ih =>
      obtain ⟨r, m, fs, ks, h⟩ := ih
      exact dOk_step A hA p d S hreq hack hex z z' r m fs ks h hst
  obtain ⟨r, m, fs, ks, h⟩ := main
  obtain ⟨is, as, hsy⟩ := h.sys
  refine ⟨⟨r, by rw [h.exec, hsy.log], hsy.low, hsy.high, h.known⟩, h.hist, h.gotQ, h.out, ?_⟩
  intro j f hj
  obtain ⟨e, h1, h2⟩ := h.got j f hj
  exact ⟨e, h1, h2⟩

/-! Non-vacuity: a counter that answers every second request with its state, and a dialogue in which a
request's acknowledgement and the first transmission of the answer are lost, the repeated answer is
duplicated and a second answer is taken. -/

def echoApp : App Nat where
  processApci n t _ b :=
    (n + 1, upd (upd (upd b 5 0x61#8) 6 0x02#8) 7 (BitVec.ofNat 8 n), (t 6).extractLsb' 2 1 == 0#1)
  broadcast n _ _ := (n, none)
  group n _ _ := (n, none)

def echoClient : Client Nat where
  req := demoReq
  ack k := demoTel 0x11FE#16 0x1105#16 (0xC2#8 ||| ((BitVec.ofNat 4 k).setWidth 8 <<< (2 : Nat)))
  expects t := (t 6).extractLsb' 2 1 == 0#1
  lens _ len := len = 8
  known i n := n = 10 + i

theorem echoApp_plain : AppPlain echoApp := by
  refine ⟨fun a t l b _ => ?_, fun a t l f b h => by simp [echoApp] at h, fun a t l f b h => by simp [echoApp] at h⟩
  simp [echoApp, upd]

theorem echoClient_expected : Expected echoApp echoClient := by
  refine ⟨fun i a l b _ _ => rfl, fun i a l b h _ => ?_, fun i a t l h => h, fun i a t l h => h⟩
  show a + 1 = 10 + (i + 1)
  have : a = 10 + i := h
  omega

theorem echoClient_acks : Acks 0x11FE#16 echoClient.ack := by
  have ia : ∀ n : BitVec 4, isAck (demoTel 0x11FE#16 0x1105#16 (0xC2#8 ||| (n.setWidth 8 <<< (2 : Nat)))) = true := by
    decide +kernel
  have sq : ∀ n : BitVec 4, seqOf (0xC2#8 ||| (n.setWidth 8 <<< (2 : Nat))) = n.toNat := by
    decide +kernel
  refine ⟨fun i => ?_, fun i => ia _, fun i => ?_⟩
  · show highByte 0x11FE#16 ++ lowByte 0x11FE#16 = (0x11FE#16 : BitVec (8 + 8))
    decide
  · simp only [echoClient, demoTel, List.getD_cons_succ, List.getD_cons_zero]
    rw [sq]; simp

def echoStart : State Nat := init 0x1105#16 0 10

def echoDialogue : Dialogue Nat :=
  { sys := { dev := (step echoApp echoStart (.rx (demoTel 0x11FE#16 0x1105#16 0x80#8) 7)).1
             current := 0, toDevice := [], toClient := [], log := [] }
    fromDevice := [], acks := [], got := [], executed := [] }

example : UnicastTo echoStart.ownAddr (demoTel 0x11FE#16 0x1105#16 0x80#8) ∧
    isConnect (demoTel 0x11FE#16 0x1105#16 0x80#8) = true ∧ src (demoTel 0x11FE#16 0x1105#16 0x80#8) = 0x11FE#16 ∧
    echoStart.phase = .closed ∧ echoStart.tx = .free ∧ echoClient.known 0 echoStart.app := by
  refine ⟨⟨?_, ?_, ?_⟩, ?_, ?_, rfl, rfl, rfl⟩ <;> decide +kernel

theorem foreignD_quiet (A : App σ) (p : Word) (S : Client σ) (s : State σ) (op : Op)
    (h : op = .loop ∨ (∃ ok, op = .txDone ok) ∨ ∃ ms, op = .advance ms) : ForeignD A p S s op := by
  rcases h with rfl | ⟨ok, rfl⟩ | ⟨ms, rfl⟩ <;>
    exact ⟨trivial, fun _ _ h => (by cases h), fun _ h => (by cases h), fun _ _ h => (by cases h),
      fun _ _ h => (by cases h)⟩

set_option maxRecDepth 100000 in
example : ∃ z, DReach echoApp 0x11FE#16 echoClient echoDialogue z ∧ z.sys.current = 2 ∧
    z.executed.map (fun e => e.1) = [10, 11, 12] ∧
    z.got = [[0xB0#8, 0#8, 0#8, 0x11#8, 0xFE#8, 0x61#8, 0x42#8, 10#8],
             [0xB0#8, 0#8, 0#8, 0x11#8, 0xFE#8, 0x61#8, 0x46#8, 12#8]] := by
  have q : ∀ (z : Dialogue Nat) op, (op = .loop ∨ (∃ ok, op = .txDone ok) ∨ ∃ ms, op = .advance ms) →
      DReach echoApp 0x11FE#16 echoClient echoDialogue z →
      DReach echoApp 0x11FE#16 echoClient echoDialogue (z.device echoApp 0x11FE#16 op) :=
    fun z op h r => .step _ _ r (.other z op (foreignD_quiet _ _ _ _ _ h))
  -- the request arrives, its acknowledgement gets lost
  have r0 : DReach echoApp 0x11FE#16 echoClient echoDialogue echoDialogue := .start
  have r1 := DReach.step _ _ r0 (.clientSend echoDialogue (Nat.le_refl _))
  have r2 := DReach.step _ _ r1 (.receive _ (demoReq 0) [] 8 rfl rfl)
  have r3 := DReach.step _ _ r2 (.loseAck _ [] 0 [] (by decide +kernel))
  have r4 := q _ (.txDone true) (by simp) r3
  -- it is repeated, not executed again, and acknowledged again
  have r5 := DReach.step _ _ r4 (.clientSend _ (Nat.le_refl _))
  have r6 := DReach.step _ _ r5 (.receive _ (demoReq 0) [] 8 rfl rfl)
  have r7 := q _ (.txDone true) (by simp) r6
  -- the answer gets lost, is repeated after three seconds and duplicated
  have r8 := q _ .loop (by simp) r7
  have r9 := DReach.step _ _ r8
    (.loseData _ [] [0xB0#8, 0#8, 0#8, 0x11#8, 0xFE#8, 0x61#8, 0x42#8, 10#8] [] (by decide +kernel))
  have r10 := q _ (.txDone true) (by simp) r9
  have r11 := q _ (.advance 3000) (by simp) r10
  have r12 := q _ .loop (by simp) r11
  have r13 := DReach.step _ _ r12
    (.dupData _ [] [0xB0#8, 0#8, 0#8, 0x11#8, 0xFE#8, 0x61#8, 0x42#8, 10#8] [] (by decide +kernel))
  have r14 := q _ (.txDone true) (by simp) r13
  have r15 := DReach.step _ _ r14 (.clientData _ _ _ rfl)
  have r16 := DReach.step _ _ r15 (.clientData _ _ _ rfl)
  have r17 := DReach.step _ _ r16 (.clientAck _ 0 [] (by decide +kernel))
  have r18 := DReach.step _ _ r17 (.answerAck _ (by decide +kernel))
  have r19 := DReach.step _ _ r18 (.receiveAck _ (echoClient.ack 0) [] 7 rfl)
  -- the second request gets no answer
  have r20 := DReach.step _ _ r19 (.clientSend _ (by decide +kernel))
  have r21 := DReach.step _ _ r20 (.receive _ (demoReq 1) [] 8 rfl rfl)
  have r22 := q _ (.txDone true) (by simp) r21
  have r23 := DReach.step _ _ r22 (.clientAck _ 1 [] (by decide +kernel))
  -- the third does
  have r24 := DReach.step _ _ r23 (.clientSend _ (by decide +kernel))
  have r25 := DReach.step _ _ r24 (.receive _ (demoReq 2) [] 8 rfl rfl)
  have r26 := q _ (.txDone true) (by simp) r25
  have r27 := q _ .loop (by simp) r26
  have r28 := DReach.step _ _ r27 (.clientData _
    [0xB0#8, 0#8, 0#8, 0x11#8, 0xFE#8, 0x61#8, 0x46#8, 12#8] [] (by decide +kernel))
  refine ⟨_, r28, ?_, ?_, ?_⟩ <;> decide +kernel

end Verif.TL4
